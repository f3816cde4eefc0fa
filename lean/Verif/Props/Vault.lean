import Verif.Props.Attached2
import Verif.Props.Incept3

/-! # Property C110: from inception to acceptance

Inception events are read back from their bytes. -/

namespace Cesride
namespace Builder
open Common Spec Tholder R32

variable {E : Env} {F : Str → Option Str} {H : Hash} {keys : List Str} {sith : Option Value} {ndigs : Option (List Str)} {nsith : Option Value}
    {toad : Option Nat} {wits cnfg : Option (List Str)} {data : Option (List Value)} {version : Option Version} {kind code : Option Str}
    {intive : Option Bool} {delpre : Option Str} {s : Sadder}

/-- An event made from a map with the version in front is also made from its own map. -/
theorem again {x : Value} {rest : List (Str × Value)} (h : Serder.new E F H none none none (some (.obj ((lit "v", x) :: rest))) none = .ok s) :
    Serder.new E F H none none none (some s.ked) none = .ok s := by
  obtain ⟨h1, h2⟩ := Serder.new_ok.mp h
  obtain ⟨r, m, h3, h4, h5, h6⟩ := Sadder.new_ked_ok.mp h1
  obtain ⟨w, j, sz, rfl, t1, t2, -, t4, t5⟩ := sizeify_first.mp h3
  have hs := sizeify_same t1 (mkVs_text t2 t4) h3
  have hk : s.ked = r.ked := by rw [h6]
  have hr : r.ked = .obj ((lit "v", .str (mkVs j ((Value.obj ((lit "v", .str w) :: rest)).toJson.length % 2 ^ 32))) :: rest) := by rw [t5]
  rw [← hr, ← hk] at hs
  exact Serder.new_ok.mpr ⟨Sadder.new_ked_ok.mpr ⟨r, m, hs, h4, h5, h6⟩, h2⟩

theorem finish_again {vs : Str} {kt nt bt : Value} {keys ndigs wits cnfg : List Str} {data : List Value}
    (h : finish E F H keys delpre code (.obj (inceptionEntries vs [] [] kt keys nt ndigs bt wits cnfg data delpre)) = .ok s) :
    Serder.new E F H none none none (some s.ked) none = .ok s := by
  unfold finish at h
  obtain ⟨p, hp, h⟩ := Res.bind_eq_ok.mp h
  obtain ⟨pre, hq, h⟩ := Res.bind_eq_ok.mp h
  have hs : ∀ (o : List (Str × Value)) k x, (Value.obj o).set k x = .ok (.obj (Value.insert o k x)) := fun _ _ _ => rfl
  rw [hs, Res.ok_bind, entries_i, hq] at h
  cases hdig : p.digestive with
  | true =>
    rw [hdig, if_pos rfl, Res.ok_bind, hs, entries_d, Res.ok_bind] at h
    exact again h
  | false =>
    rw [hdig, if_neg (by decide)] at h
    obtain ⟨ked, hk0, h⟩ := Res.bind_eq_ok.mp h
    obtain ⟨⟨m, sad'⟩, hsd, hk1⟩ := Res.bind_eq_ok.mp hk0
    injection hk1 with hk1
    subst hk1
    obtain ⟨o, o', t, ho, ho', _, _, _, hkeys, _⟩ := C43_map hsd
    injection ho with ho
    subst ho
    subst ho'
    cases o' with
    | nil => cases hkeys
    | cons a rest =>
      obtain ⟨k, x⟩ := a
      injection hkeys with hk _
      have hk : k = lit "v" := hk
      subst hk
      exact again h

/-- A value that can be written and read: 64-bit integers, finite floats that are read as they are printed, valid texts, and limited nesting. -/
structure Ordinary (F : Str → Option Str) (n : Nat) (v : Value) : Prop where
  plain : Plain v
  floats : FloatsRead F v
  utf8 : Utf8Value v
  depth : depth v ≤ n

theorem ordinary_str (F : Str → Option Str) (n : Nat) {t : Str} (h : utf8Valid t = true) : Ordinary F n (.str t) :=
  ⟨trivial, fun t ht => (by cases ht), h, Nat.zero_le _⟩

theorem ordinary_int (F : Str → Option Str) (n : Nat) {k : Nat} (h : k < 2 ^ 32) : Ordinary F n (.int k) :=
  ⟨by simp only [Plain]; omega, fun t ht => (by cases ht), trivial, Nat.zero_le _⟩

theorem ordinary_arr {F : Str → Option Str} {n : Nat} {a : List Value} (h : ∀ v ∈ a, Ordinary F n v) : Ordinary F (n + 1) (.arr a) := by
  refine ⟨?_, floatsRead_arr.mpr fun v hv => (h v hv).floats, ?_, ?_⟩
  · show PlainElems a
    induction a with
    | nil => trivial
    | cons v a ih => exact ⟨(h v (by simp)).plain, ih fun w hw => h w (by simp [hw])⟩
  · show Utf8Elems a
    induction a with
    | nil => trivial
    | cons v a ih => exact ⟨(h v (by simp)).utf8, ih fun w hw => h w (by simp [hw])⟩
  · show depthElems a + 1 ≤ n + 1
    refine Nat.succ_le_succ ?_
    induction a with
    | nil => exact Nat.zero_le _
    | cons v a ih => exact Nat.max_le.mpr ⟨(h v (by simp)).depth, ih fun w hw => h w (by simp [hw])⟩

theorem ordinary_obj {F : Str → Option Str} {n : Nat} {o : List (Str × Value)} (h : ∀ e ∈ o, utf8Valid e.1 = true ∧ Ordinary F n e.2) (hn : (o.map Prod.fst).Nodup) :
    Ordinary F (n + 1) (.obj o) := by
  refine ⟨⟨?_, hn⟩, floatsRead_obj.mpr fun e he => (h e he).2.floats, ?_, ?_⟩
  · show PlainFields o
    clear hn
    induction o with
    | nil => trivial
    | cons e o ih => exact ⟨(h e (by simp)).2.plain, ih fun w hw => h w (by simp [hw])⟩
  · show Utf8Fields o
    clear hn
    induction o with
    | nil => trivial
    | cons e o ih => exact ⟨(h e (by simp)).1, (h e (by simp)).2.utf8, ih fun w hw => h w (by simp [hw])⟩
  · show depthFields o + 1 ≤ n + 1
    refine Nat.succ_le_succ ?_
    clear hn
    induction o with
    | nil => exact Nat.zero_le _
    | cons e o ih => exact Nat.max_le.mpr ⟨(h e (by simp)).2.depth, ih fun w hw => h w (by simp [hw])⟩

theorem Ordinary.mono {F : Str → Option Str} {n k : Nat} {v : Value} (h : Ordinary F n v) (hk : n ≤ k) : Ordinary F k v := ⟨h.plain, h.floats, h.utf8, Nat.le_trans h.depth hk⟩

theorem ordinary_strs (F : Str → Option Str) (n : Nat) {l : List Str} (h : ∀ t ∈ l, utf8Valid t = true) : Ordinary F (n + 1) (.arr (l.map .str)) :=
  ordinary_arr fun v hv => by
    obtain ⟨t, ht, rfl⟩ := List.mem_map.mp hv
    exact ordinary_str F n (h t ht)

theorem weight_ascii {q : Rat} (h : Small q) : Ascii (weightText (ch '/') (rep q)) := by
  intro c hc
  rcases weightText_chars h (ch '/') c hc with ⟨_, h2⟩ | rfl
  · have : c.toNat ≤ (ch '9').toNat := h2
    have h9 : (ch '9').toNat = 57 := by decide
    show c.toNat < 128
    omega
  · decide

/-- What a threshold is written as. -/
theorem shown_ordinary {v kt : Value} {t : Tholder} {b : Bool} (h : Tholder.new E F none none (some v) = .ok t) (hs : shownThreshold b t = .ok kt) : Ordinary F 2 kt := by
  have hne := sith_nonempty h
  unfold shownThreshold at hs
  rcases new_shaped h with ⟨n, hm⟩ | ⟨cs, hw⟩
  · rw [num_number hm, Res.ok_bind] at hs
    dsimp only at hs
    split at hs
    · injection hs with hs
      subst hs
      exact ordinary_int F 2 hm.fits
    · rw [(sith_number (F := F) hm).1] at hs
      injection hs with hs
      subst hs
      exact ordinary_str F 2 (utf8Valid_ascii (hexStr_ascii n))
  · have hnum : t.num = .ok none := by simp [num, hw.weighted]
    rw [hnum, Res.ok_bind] at hs
    dsimp only at hs
    obtain ⟨x, h1, h2, h3⟩ := sith_weighted hw (by rintro rfl; exact hne hw.thold)
    rw [h1] at hs
    injection hs with hs
    subst hs
    have clause : ∀ c ∈ cs, Ordinary F 1 (.arr ((c.map rep).map fun w => .str (weightText (ch '/') w))) := by
      intro c hc
      refine ordinary_arr fun v hv => ?_
      obtain ⟨w, hw', rfl⟩ := List.mem_map.mp hv
      obtain ⟨q, hq, rfl⟩ := List.mem_map.mp hw'
      exact ordinary_str F 0 (utf8Valid_ascii (weight_ascii (hw.good c hc q hq).2))
    rcases h3 with ⟨c, rfl, h3⟩ | h3
    · rw [h3]
      exact (clause c (by simp)).mono (by omega)
    · rw [h3]
      refine ordinary_arr fun v hv => ?_
      obtain ⟨c, hc, rfl⟩ := List.mem_map.mp hv
      obtain ⟨c', hc', rfl⟩ := List.mem_map.mp hc
      exact clause c' hc'

/-- C110. An inception event made with valid texts and ordinary data is read back from its bytes, whatever text follows. -/
theorem C110_reads (h : incept E F H keys sith ndigs nsith toad wits cnfg data version kind code intive delpre = .ok s)
    (hu : ∀ t ∈ keys ++ ndigs.getD [] ++ wits.getD [] ++ cnfg.getD [] ++ delpre.toList, utf8Valid t = true) (hdata : ∀ v ∈ data.getD [], Ordinary F 125 v)
    (hl : s.raw.length < 2 ^ 32) (tail : Str) (ht : utf8Valid tail = true) : Serder.newWithRaw E F H (s.raw ++ tail) = .ok s := by
  obtain ⟨vs, t, nt, kt, ntv, n, bt, dr, hf⟩ := incept_ok.mp h
  have hag := finish_again hf
  obtain ⟨p, pre, vs', d, hp, hq, hk, hr, hv, hlt, hs, hc, _, _⟩ := finish_ok hf
  have upre : utf8Valid pre = true := by
    have hnew : ∃ code raw qb64b qb64 qb2, Matter.new E code raw qb64b qb64 qb2 = .ok p := by
      rcases prefixerOf_ok.mp hp with ⟨_, _, _, _, h, _⟩ | ⟨_, h, _⟩ <;> exact Prefixer.new_matter h
    obtain ⟨_, _, _, _, _, hm⟩ := hnew
    obtain ⟨z, w⟩ := Matter.new_text_wf hm hq
    rw [(text_of_wf w hq).1]
    exact utf8Valid_ascii fun c hc => isB64_lt128 c (w.text_b64 c hc)
  have ud : utf8Valid d = true := by
    have hag' := hag
    rw [hk] at hag'
    obtain ⟨a, _, v2, n2, _, _, _, _, _, hx, _⟩ := ked_new hag'
    obtain ⟨z, w⟩ := Cesride.Matter.exfil_wf hx hs
    have hs' : s.saider.qb64 E = .ok d := hs
    rw [(text_of_wf w hs').1]
    exact utf8Valid_ascii fun c hc => isB64_lt128 c (w.text_b64 c hc)
  have hbt : Ordinary F 2 bt := by
    rw [dr.bt]
    split
    · rename_i hn; exact ordinary_int F 2 (by omega)
    · exact ordinary_str F 2 (utf8Valid_ascii (hexStr_ascii n))
  have hstr : ∀ t ∈ keys ++ ndigs.getD [] ++ wits.getD [] ++ cnfg.getD [] ++ delpre.toList, utf8Valid t = true := hu
  simp only [List.mem_append] at hstr
  have hord : Ordinary F 127 s.ked := by
    rw [hk]
    refine ordinary_obj (n := 126) ?_ ?_
    · have fixed : ∀ k ∈ [lit "v", lit "t", lit "d", lit "i", lit "s", lit "kt", lit "k", lit "nt", lit "n", lit "bt", lit "b", lit "c", lit "a", lit "di", lit "0", lit "icp", lit "dip"],
          utf8Valid k = true := by decide +kernel
      intro e he
      unfold inceptionEntries at he
      rcases List.mem_append.mp he with he | he
      · simp only [List.mem_cons, List.not_mem_nil, or_false] at he
        rcases he with rfl | rfl | rfl | rfl | rfl | rfl | rfl | rfl | rfl | rfl | rfl | rfl | rfl
        · exact ⟨fixed _ (by simp), ordinary_str F _ (utf8Valid_ascii (versionText_ascii hv))⟩
        · exact ⟨fixed _ (by simp), ordinary_str F _ (by split <;> exact fixed _ (by simp))⟩
        · exact ⟨fixed _ (by simp), ordinary_str F _ ud⟩
        · exact ⟨fixed _ (by simp), ordinary_str F _ upre⟩
        · exact ⟨fixed _ (by simp), ordinary_str F _ (fixed _ (by simp))⟩
        · exact ⟨fixed _ (by simp), (shown_ordinary dr.thold dr.kt).mono (by omega)⟩
        · exact ⟨fixed _ (by simp), ordinary_strs F 125 fun t ht => hstr t (by simp [ht])⟩
        · exact ⟨fixed _ (by simp), (shown_ordinary dr.nthold dr.nt).mono (by omega)⟩
        · exact ⟨fixed _ (by simp), ordinary_strs F 125 fun t ht => hstr t (by simp [ht])⟩
        · exact ⟨fixed _ (by simp), hbt.mono (by omega)⟩
        · exact ⟨fixed _ (by simp), ordinary_strs F 125 fun t ht => hstr t (by simp [ht])⟩
        · exact ⟨fixed _ (by simp), ordinary_strs F 125 fun t ht => hstr t (by simp [ht])⟩
        · exact ⟨fixed _ (by simp), ordinary_arr hdata⟩
      · cases delpre with
        | none => cases he
        | some x =>
          simp only [List.mem_cons, List.not_mem_nil, or_false] at he
          subst he
          exact ⟨fixed _ (by simp), ordinary_str F _ (hstr x (by simp))⟩
    · have h1 : List.Nodup [lit "v", lit "t", lit "d", lit "i", lit "s", lit "kt", lit "k", lit "nt", lit "n", lit "bt", lit "b", lit "c", lit "a"] := by decide +kernel
      have h2 : List.Nodup [lit "v", lit "t", lit "d", lit "i", lit "s", lit "kt", lit "k", lit "nt", lit "n", lit "bt", lit "b", lit "c", lit "a", lit "di"] := by decide +kernel
      cases delpre with
      | none => exact h1
      | some x => exact h2
  obtain ⟨rest, hrest⟩ := entries_cons (delpre := delpre) (d := d) (i := pre) (kt := kt) (nt := ntv) (bt := bt) (keys := keys) (ndigs := ndigs.getD []) (wits := wits.getD [])
      (cnfg := cnfg.getD []) (data := data.getD [])
  rw [hk, hrest vs'] at hag hord
  have := C59_serder hag hord.plain hord.floats hord.utf8 (Nat.lt_of_le_of_lt hord.depth (by omega)) hl tail
  rw [if_pos ht] at this
  exact this

end Builder
end Cesride
