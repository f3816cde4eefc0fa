import Verif.Props.Panics
import Verif.Lemmas.Padded
import Verif.Spec.Cuts

/-! # C22, C26 for all text: exactly when reading an indexed signature or a counter panics -/

namespace Cesride

theorem b64ToU32_iff {t : Str} (hl : t.length ≤ 5) (n : Nat) : b64ToU32 t = .ok n ↔ Spec.IsB64Text t ∧ Spec.textNum t = n := by
  rw [isB64Text_iff]
  constructor
  · intro h
    have hb := b64ToUint_ok_isB64 h
    refine ⟨hb, ?_⟩
    obtain ⟨d, hd, rfl⟩ := exists_encD hb
    rw [b64ToU32_encD hd (by simpa using hl)] at h
    rw [textNum_encD hd]
    exact Res.ok.inj h
  · rintro ⟨hb, rfl⟩
    obtain ⟨d, hd, rfl⟩ := exists_encD hb
    rw [b64ToU32_encD hd (by simpa using hl), textNum_encD hd]

theorem take_prefix_iff {code s : Str} : code <+: s ↔ s.take code.length = code ∧ code.length ≤ s.length :=
  ⟨fun h => ⟨(List.prefix_iff_eq_take.mp h).symm, h.length_le⟩, fun h => by rw [← h.1]; exact List.take_prefix _ _⟩

namespace Indexer

/-- The cut points, in terms of the table. -/
def Cut (s : Str) (k : Nat) : Prop :=
  (∃ c rest, s = c :: rest ∧ hardage c = .ok k) ∨
  (∃ z, sizage (s.take z.hs) = .ok z ∧ z.hs + z.ss ≤ s.length ∧
    (k = z.hs + (z.ss - z.os) ∨
     ∃ i, b64ToU32 ((s.take (z.hs + (z.ss - z.os))).drop z.hs) = .ok i ∧ (k = z.hs + z.ss ∨
      ∃ o, readOndex (s.take z.hs) z.os i ((s.take (z.hs + z.ss)).drop (z.hs + (z.ss - z.os))) = .ok o ∧
        k = if z.fs = u32Max then i * 4 + (z.hs + z.ss) else z.fs)))

theorem exfil_step {c : UInt8} {s rest : Str} (he : s = c :: rest) {z : ISizage} (hh : hardage c = .ok z.hs) (hl : z.hs + z.ss ≤ s.length)
    (hz : sizage (s.take z.hs) = .ok z) (hb : isBoundary s z.hs = true) :
    Indexer.exfil s = (do
      let itext ← (if isBoundary s (z.hs + (z.ss - z.os)) = true then .ok ((s.take (z.hs + (z.ss - z.os))).drop z.hs) else .panic : Res Str)
      let i ← b64ToU32 itext
      let odx ← sliceStr s (z.hs + (z.ss - z.os)) (z.hs + z.ss)
      let o ← readOndex (s.take z.hs) z.os i odx
      exfilBody { code := s.take z.hs, raw := [], index := i, ondex := o } z s) := by
  have hos := (row_of_sizage hz).os
  subst he
  unfold Indexer.exfil
  simp only [hh, Res.ok_bind]
  rw [if_neg (by omega), sliceStr_if (Nat.zero_le _) (by omega) (isBoundary_zero _), if_pos hb, Res.ok_bind, List.drop_zero, hz, Res.ok_bind,
    if_neg (by omega), sliceStr_if (by omega) (by omega) hb, show z.ss - z.os + z.os = z.ss by omega]
  congr 1; funext itext
  congr 1; funext i
  congr 1; funext odx
  congr 1; funext o
  have := fs_eq (x := { code := (c :: rest).take z.hs, raw := [], index := i, ondex := o }) (z := z) hz .validation .validation
  simp only at this
  rw [this]; rfl

theorem exfilBody_panic {x : Indexer} {z : ISizage} {s : Str} (hz : sizage x.code = .ok z) 
    (hb : isBoundary s (z.hs + z.ss) = true) :
    exfilBody x z s = .panic ↔ total x z ≤ s.length ∧ isBoundary s (total x z) = false := by
  have r := row_of_sizage hz
  have hp2 := r.p2
  have hls1 := r.ls1
  have htg := total_ge hz
  constructor
  · intro h
    unfold exfilBody at h
    split at h
    · cases h
    rename_i hlen
    refine ⟨by omega, ?_⟩
    rw [sliceStr_if (Nat.zero_le _) (by omega) (isBoundary_zero _)] at h
    by_cases hbt : isBoundary s (total x z) = true
    case neg => simpa using hbt
    exfalso
    rw [if_pos hbt, Res.ok_bind, List.drop_zero] at h
    have htl : (s.take (total x z)).length = total x z := by rw [List.length_take]; omega
    rw [sliceStr_if (by omega) (Nat.le_refl _) (isBoundary_take htg.1 (by omega) hb), if_pos (by simp [isBoundary]), List.take_length,
      Res.ok_bind] at h
    have hml : ((s.take (total x z)).drop (z.hs + z.ss)).length = total x z - (z.hs + z.ss) := by rw [List.length_drop, htl]
    generalize (s.take (total x z)).drop (z.hs + z.ss) = mat at h hml
    have hbytes : ∀ paw, b64DecodeOpt (List.replicate ((z.hs + z.ss) % 4) (ch 'A') ++ mat) = some paw →
        (z.hs + z.ss) % 4 ≤ paw.length ∧ z.ls ≤ paw.length := by
      intro paw hpaw
      have := decode_length_ge hpaw
      rw [List.length_append, List.length_replicate, hml] at this
      unfold total at this
      split at this
      · rename_i hf
        obtain ⟨a, b, c, d⟩ := r.var hf
        omega
      · rename_i hf
        obtain ⟨a, b, c, d⟩ := r.fix hf
        omega
    split at h
    · rw [Res.bind_eq_panic] at h
      rcases h with h | ⟨paw, hpaw, h⟩
      · exact b64Decode_ne_panic _ h
      obtain ⟨h1, h2⟩ := hbytes paw (b64Decode_ok hpaw)
      rw [slice_eq (Nat.zero_le _) h1, Res.ok_bind] at h
      split at h
      · cases h
      rw [slice_to_end h1, Res.ok_bind] at h
      cases h
    · rename_i h0
      rw [Res.bind_eq_panic] at h
      rcases h with h | ⟨paw, hpaw, h⟩
      · exact b64Decode_ne_panic _ h
      obtain ⟨h1, h2⟩ := hbytes paw (by rw [show (z.hs + z.ss) % 4 = 0 by simpa using h0]; simpa using b64Decode_ok hpaw)
      rw [slice_eq (Nat.zero_le _) h2, Res.ok_bind] at h
      split at h
      · split at h <;> cases h
      rw [slice_to_end h1, Res.ok_bind] at h
      cases h
  · rintro ⟨h1, h2⟩
    unfold exfilBody
    rw [if_neg (by omega), sliceStr_if (Nat.zero_le _) (by omega) (isBoundary_zero _), if_neg (by simp [h2]), Res.panic_bind]

theorem exfil_panic_iff {s : Str} : Indexer.exfil s = .panic ↔ ∃ k ≤ s.length, isBoundary s k = false ∧ Cut s k := by
  cases s with
  | nil =>
    constructor
    · intro h; cases h
    · rintro ⟨k, hk, hb, _⟩
      obtain rfl : k = 0 := by simpa using hk
      simp [isBoundary] at hb
  | cons c rest =>
  generalize hs : c :: rest = s
  cases hh : hardage c with
  | panic => exact absurd hh (hardage_ne_panic c)
  | err e =>
    constructor
    · intro h
      rw [← hs] at h
      unfold Indexer.exfil at h
      simp only [hh, Res.err_bind] at h
      cases h
    · rintro ⟨k, hk, hb, ⟨c', rest', he, hh'⟩ | ⟨z, hz, hl, _⟩⟩
      · rw [he] at hs; injection hs with h1 _; rw [← h1, hh] at hh'; cases hh'
      · obtain ⟨c', t, he, hh', _⟩ := (row_of_sizage hz).hard
        have := (row_of_sizage hz).hs1
        obtain ⟨n, hn⟩ : ∃ n, z.hs = n + 1 := ⟨z.hs - 1, by omega⟩
        rw [← hs, hn, List.take_succ_cons] at he
        injection he with h1 _
        rw [← h1, hh] at hh'; cases hh'
  | ok n =>
  by_cases hn : s.length < n
  · constructor
    · intro h
      rw [← hs] at h hn
      unfold Indexer.exfil at h
      simp only [hh, Res.ok_bind] at h
      rw [if_pos hn] at h
      cases h
    · rintro ⟨k, hk, hb, ⟨c', rest', he, hh'⟩ | ⟨z, hz, hl, _⟩⟩
      · rw [he] at hs; injection hs with h1 _; rw [← h1, hh] at hh'
        injection hh' with hh'; omega
      · obtain ⟨c', t, he, hh', _⟩ := (row_of_sizage hz).hard
        have := (row_of_sizage hz).hs1
        obtain ⟨m, hm⟩ : ∃ n, z.hs = n + 1 := ⟨z.hs - 1, by omega⟩
        rw [← hs, hm, List.take_succ_cons] at he
        injection he with h1 _
        rw [← h1, hh] at hh'
        injection hh' with hh'; omega
  by_cases hb1 : isBoundary s n = true
  case neg =>
    constructor
    · intro _
      exact ⟨n, by omega, by simpa using hb1, .inl ⟨c, rest, hs.symm, hh⟩⟩
    · intro _
      rw [← hs] at hb1 hn ⊢
      unfold Indexer.exfil
      simp only [hh, Res.ok_bind]
      rw [if_neg hn, sliceStr_if (Nat.zero_le _) (by omega) (isBoundary_zero _), if_neg hb1, Res.panic_bind]
  -- the code is cut off
  have hzs : ∀ z, sizage (s.take z.hs) = .ok z → z.hs ≤ s.length → z.hs = n := by
    intro z hz _
    obtain ⟨c', t, he, hh', _⟩ := (row_of_sizage hz).hard
    have := (row_of_sizage hz).hs1
    obtain ⟨m, hm⟩ : ∃ n, z.hs = n + 1 := ⟨z.hs - 1, by omega⟩
    rw [← hs, hm, List.take_succ_cons] at he
    injection he with h1 _
    rw [← h1, hh] at hh'
    injection hh' with hh'
    exact hh'.symm
  have hno : (∀ z, sizage (s.take z.hs) = .ok z → z.hs + z.ss ≤ s.length → False) →
      ¬ ∃ k ≤ s.length, isBoundary s k = false ∧ Cut s k := by
    rintro hz ⟨k, hk, hb, ⟨c', rest', he, hh'⟩ | ⟨z, hz', hl, _⟩⟩
    · rw [he] at hs; injection hs with h1 _; rw [← h1, hh] at hh'
      injection hh' with hh'; rw [← hh', hb1] at hb; cases hb
    · exact hz z hz' hl
  have e0 : Indexer.exfil s = (do
      let szg ← sizage (s.take n)
      if s.length < szg.hs + szg.ss then .err .shortage else Indexer.exfil s) := by
    cases hz : sizage (s.take n) with
    | panic => exact absurd hz (sizage_ne_panic _)
    | err e =>
      rw [← hs] at hb1 hn hz ⊢
      unfold Indexer.exfil
      simp only [hh, Res.ok_bind]
      rw [if_neg hn, sliceStr_if (Nat.zero_le _) (by omega) (isBoundary_zero _), if_pos hb1, Res.ok_bind, List.drop_zero, hz]
      rfl
    | ok z =>
      rw [Res.ok_bind]
      split
      · rename_i hl
        rw [← hs] at hb1 hn hz hl ⊢
        unfold Indexer.exfil
        simp only [hh, Res.ok_bind]
        rw [if_neg hn, sliceStr_if (Nat.zero_le _) (by omega) (isBoundary_zero _), if_pos hb1, Res.ok_bind, List.drop_zero, hz, Res.ok_bind,
          if_pos hl]
      · rfl
  cases hz : sizage (s.take n) with
  | panic => exact absurd hz (sizage_ne_panic _)
  | err e =>
    rw [e0, hz]
    refine ⟨fun h => (by cases h), fun h => absurd h (hno ?_)⟩
    intro z hz' hl
    rw [hzs z hz' (by omega), hz] at hz'
    cases hz'
  | ok z =>
  have hzn : z.hs = n := by
    have := (row_of_sizage hz).len
    rw [List.length_take] at this; omega
  subst hzn
  by_cases hcs : s.length < z.hs + z.ss
  · rw [e0, hz, Res.ok_bind, if_pos hcs]
    refine ⟨fun h => (by cases h), fun h => absurd h (hno ?_)⟩
    intro z' hz' hl
    rw [hzs z' hz' (by omega), hz] at hz'
    injection hz' with hz'
    rw [← hz'] at hl; omega
  rw [exfil_step hs.symm hh (by omega) hz hb1]
  have r := row_of_sizage hz
  have hos := r.os
  by_cases hb2 : isBoundary s (z.hs + (z.ss - z.os)) = true
  case neg =>
    rw [if_neg hb2, Res.panic_bind]
    exact ⟨fun _ => ⟨_, by omega, by simpa using hb2, .inr ⟨z, hz, by omega, .inl rfl⟩⟩, fun _ => rfl⟩
  rw [if_pos hb2, Res.ok_bind]
  have huniq : ∀ k ≤ s.length, isBoundary s k = false → Cut s k →
      ∃ i, b64ToU32 ((s.take (z.hs + (z.ss - z.os))).drop z.hs) = .ok i ∧ (k = z.hs + z.ss ∨
      ∃ o, readOndex (s.take z.hs) z.os i ((s.take (z.hs + z.ss)).drop (z.hs + (z.ss - z.os))) = .ok o ∧
        k = if z.fs = u32Max then i * 4 + (z.hs + z.ss) else z.fs) := by
    rintro k hk hb (⟨c', rest', he, hh'⟩ | ⟨z', hz', hl, h⟩)
    · rw [he] at hs; injection hs with h1 _; rw [← h1, hh] at hh'
      injection hh' with hh'; rw [← hh', hb1] at hb; cases hb
    · have e := hzs z' hz' (by omega)
      rw [e, hz] at hz'
      injection hz' with hz'
      subst hz'
      rcases h with rfl | h
      · rw [hb2] at hb; cases hb
      · exact h
  cases hi : b64ToU32 ((s.take (z.hs + (z.ss - z.os))).drop z.hs) with
  | panic => exact absurd hi (b64ToU32_ne_panic _)
  | err e =>
    rw [Res.err_bind]
    refine ⟨fun h => (by cases h), ?_⟩
    rintro ⟨k, hk, hb, hc⟩
    obtain ⟨i, h, _⟩ := huniq k hk hb hc
    rw [hi] at h; cases h
  | ok i =>
  rw [Res.ok_bind, sliceStr_if (by omega) (by omega) hb2]
  by_cases hb3 : isBoundary s (z.hs + z.ss) = true
  case neg =>
    rw [if_neg hb3, Res.panic_bind]
    exact ⟨fun _ => ⟨_, by omega, by simpa using hb3, .inr ⟨z, hz, by omega, .inr ⟨i, hi, .inl rfl⟩⟩⟩, fun _ => rfl⟩
  rw [if_pos hb3, Res.ok_bind]
  cases ho : readOndex (s.take z.hs) z.os i ((s.take (z.hs + z.ss)).drop (z.hs + (z.ss - z.os))) with
  | panic => exact absurd ho (readOndex_ne_panic _ _ _ _)
  | err e =>
    rw [Res.err_bind]
    refine ⟨fun h => (by cases h), ?_⟩
    rintro ⟨k, hk, hb, hc⟩
    obtain ⟨i', h, h'⟩ := huniq k hk hb hc
    rw [hi] at h
    obtain rfl := Res.ok.inj h
    rcases h' with rfl | ⟨o, h', _⟩
    · rw [hb3] at hb; cases hb
    · rw [ho] at h'; cases h'
  | ok o =>
  rw [Res.ok_bind, exfilBody_panic hz hb3]
  constructor
  · rintro ⟨h1, h2⟩
    exact ⟨_, h1, h2, .inr ⟨z, hz, by omega, .inr ⟨i, hi, .inr ⟨o, ho, rfl⟩⟩⟩⟩
  · rintro ⟨k, hk, hb, hc⟩
    obtain ⟨i', h, h'⟩ := huniq k hk hb hc
    rw [hi] at h
    obtain rfl := Res.ok.inj h
    rcases h' with rfl | ⟨o, h', rfl⟩
    · rw [hb3] at hb; cases hb
    · exact ⟨hk, hb⟩


theorem readOndex_iff {hard odx : Str} {os i : Nat} (hl : odx.length = os) (h3 : os ≤ 3) :
    (∃ o, readOndex hard os i odx = .ok o) ↔ Spec.IsB64Text odx ∧ (isCurrent hard = true → Spec.textNum odx = 0) := by
  unfold readOndex
  by_cases h0 : os = 0
  · subst h0
    obtain rfl := List.eq_nil_of_length_eq_zero hl
    constructor
    · intro _
      exact ⟨fun c hc => absurd hc (by simp), fun _ => rfl⟩
    · intro _
      cases isCurrent hard <;> simp
  · have hi := b64ToU32_iff (t := odx) (by omega)
    cases hc : isCurrent hard
    · simp only [if_pos h0, Bool.false_eq_true, if_false, false_imp_iff, and_true]
      exact ⟨fun ⟨o, h⟩ => ((hi o).mp h).1, fun h => ⟨_, (hi _).mpr ⟨h, rfl⟩⟩⟩
    · simp only [if_pos h0, if_true, forall_const]
      constructor
      · rintro ⟨o, h⟩
        obtain ⟨v, hv, h⟩ := Res.bind_eq_ok.mp h
        obtain ⟨h1, h2⟩ := (hi v).mp hv
        refine ⟨h1, ?_⟩
        split at h
        · cases h
        · omega
      · rintro ⟨h1, h2⟩
        refine ⟨0, ?_⟩
        rw [(hi 0).mpr ⟨h1, h2⟩, Res.ok_bind, if_neg (by simp)]

/-- A row of the table is the head of the specification. -/
def rowIs (h : Spec.IdxHead) (e : Str × ISizage) : Bool :=
  h.code == e.1 && h.digits == e.2.ss - e.2.os && h.other == e.2.os && h.current == isCurrent e.1 && h.code.length == e.2.hs &&
  (if e.2.fs = u32Max then h.bytes == none else match h.bytes with
    | none => false
    | some b => e.2.fs == Spec.wireLength (e.2.hs + e.2.ss) b)

theorem rowIs_iff {h : Spec.IdxHead} {e : Str × ISizage} (hr : rowIs h e = true) :
    h.code = e.1 ∧ h.digits = e.2.ss - e.2.os ∧ h.other = e.2.os ∧ h.current = isCurrent e.1 ∧ h.code.length = e.2.hs ∧
    (e.2.fs = u32Max → h.bytes = none) ∧ (e.2.fs ≠ u32Max → ∀ n, e.2.fs = Spec.wireLength (e.2.hs + e.2.ss) (h.bytes.getD n)) := by
  simp only [rowIs, Bool.and_eq_true, beq_iff_eq] at hr
  obtain ⟨⟨⟨⟨⟨h1, h2⟩, h3⟩, h4⟩, h5⟩, h6⟩ := hr
  refine ⟨h1, h2, h3, h4, h5, fun hf => ?_, fun hf n => ?_⟩
  · rw [if_pos hf] at h6; simpa using h6
  · rw [if_neg hf] at h6
    cases hb : h.bytes with
    | none => rw [hb] at h6; cases h6
    | some b => rw [hb] at h6; simpa using h6

theorem heads_of_sizes : ∀ e ∈ sizes, ∃ h ∈ Spec.idxHeads, rowIs h e = true := by decide +kernel
theorem sizes_of_heads : ∀ h ∈ Spec.idxHeads, ∃ e ∈ sizes, rowIs h e = true ∧ sizage e.1 = .ok e.2 := by decide +kernel

theorem hardage_idxCodeLength (c : UInt8) (n : Nat) : hardage c = .ok n ↔ Spec.idxCodeLength c = some n := by
  have key : ∀ c : UInt8, (ch '0' ≤ c ∧ c ≤ ch '4') ↔ c ∈ lit "01234" := by
    have : ∀ k : Fin 256, (ch '0' ≤ UInt8.ofNat k.val ∧ UInt8.ofNat k.val ≤ ch '4') ↔ UInt8.ofNat k.val ∈ lit "01234" := by decide +kernel
    intro c
    have h := this ⟨c.toNat, c.toNat_lt⟩
    simpa using h
  unfold hardage Spec.idxCodeLength
  simp only [← key c]
  split
  · simp
  split
  · simp
  split
  · simp
  split <;> simp

theorem wireLength_var {i n : Nat} (h4 : n % 4 = 0) : i * 4 + n = Spec.wireLength n (3 * i) := by
  unfold Spec.wireLength; omega

theorem cut_iff {s : Str} {k : Nat} (hk : k ≤ s.length) : Cut s k ↔ Spec.IdxCutPoint s k := by
  constructor
  · rintro (⟨c, rest, he, hh⟩ | ⟨z, hz, hl, h⟩)
    · exact .inl ⟨c, rest, he, (hardage_idxCodeLength c k).mp hh⟩
    · right
      obtain ⟨h', hm, hr⟩ := heads_of_sizes _ (sizage_mem hz)
      obtain ⟨h1, h2, h3, h4, h5, h6, h7⟩ := rowIs_iff hr
      simp only at h1 h2 h3 h4 h5 h6 h7
      have r := row_of_sizage hz
      have hos := r.os
      have hp1 : s.take z.hs ++ (s.take (z.hs + (z.ss - z.os))).drop z.hs = s.take (z.hs + (z.ss - z.os)) := by
        have := List.take_append_drop z.hs (s.take (z.hs + (z.ss - z.os)))
        rwa [List.take_take, Nat.min_eq_left (by omega)] at this
      have hp2 : s.take (z.hs + (z.ss - z.os)) ++ (s.take (z.hs + z.ss)).drop (z.hs + (z.ss - z.os)) = s.take (z.hs + z.ss) := by
        have := List.take_append_drop (z.hs + (z.ss - z.os)) (s.take (z.hs + z.ss))
        rwa [List.take_take, Nat.min_eq_left (by omega)] at this
      rcases h with rfl | ⟨i, hi, h⟩
      · exact .inl ⟨h', hm, by rw [h1]; exact List.take_prefix _ _, by omega, by omega⟩
      rw [b64ToU32_iff (by simp; have := r.ms3; omega)] at hi
      rcases h with rfl | ⟨o, ho, rfl⟩
      · exact .inr (.inl ⟨h', hm, _, by rw [h1, hp1]; exact List.take_prefix _ _, by simp; omega, hi.1, by omega⟩)
      · have ho' := (readOndex_iff (by simp; omega) r.os3).mp ⟨o, ho⟩
        refine .inr (.inr ⟨h', hm, _, _, by rw [h1, hp1, hp2]; exact List.take_prefix _ _, by simp; omega, hi.1, by simp; omega, ho'.1,
          fun hc => ho'.2 (by rw [← h4]; exact hc), ?_⟩)
        rw [show h'.code.length + h'.digits + h'.other = z.hs + z.ss by omega]
        split
        · rename_i hf
          rw [h6 hf, hi.2]
          exact wireLength_var (r.var hf).1
        · rename_i hf
          exact h7 hf _
  · rintro (⟨c, rest, he, hh⟩ | h)
    · exact .inl ⟨c, rest, he, (hardage_idxCodeLength c k).mpr hh⟩
    · right
      have go : ∀ h ∈ Spec.idxHeads, h.code <+: s → ∃ z, sizage (s.take z.hs) = .ok z ∧ h.digits = z.ss - z.os ∧ h.other = z.os ∧
          h.current = isCurrent (s.take z.hs) ∧ h.code.length = z.hs ∧ (z.fs = u32Max → h.bytes = none) ∧
          (z.fs ≠ u32Max → ∀ n, z.fs = Spec.wireLength (z.hs + z.ss) (h.bytes.getD n)) := by
        intro h hm hp
        obtain ⟨e, _, hr, hz⟩ := sizes_of_heads h hm
        obtain ⟨h1, h2, h3, h4, h5, h6, h7⟩ := rowIs_iff hr
        have : s.take e.2.hs = e.1 := by rw [← h5, ← h1]; exact (take_prefix_iff.mp hp).1
        exact ⟨e.2, by rw [this]; exact hz, h2, h3, by rw [this]; exact h4, h5, h6, h7⟩
      have pre : ∀ {a b : Str}, a ++ b <+: s → a <+: s := fun h => (List.prefix_append _ _).trans h
      rcases h with ⟨h, hm, hp, hl, rfl⟩ | ⟨h, hm, d1, hp, hd, hb, rfl⟩ | ⟨h, hm, d1, d2, hp, hd, hb, hd2, hb2, hcur, rfl⟩
      · obtain ⟨z, hz, h2, h3, h4, h5, h6, h7⟩ := go h hm hp
        have hos := (row_of_sizage hz).os
        exact ⟨z, hz, by omega, .inl (by omega)⟩
      · obtain ⟨z, hz, h2, h3, h4, h5, h6, h7⟩ := go h hm (pre hp)
        have r := row_of_sizage hz
        have hos := r.os
        have hms := r.ms3
        have hit : (s.take (z.hs + (z.ss - z.os))).drop z.hs = d1 := by
          have := (take_prefix_iff.mp hp).1
          rw [List.length_append, h5, hd, h2] at this
          rw [this, ← h5, List.drop_left]
        exact ⟨z, hz, by omega, .inr ⟨_, by rw [hit]; exact (b64ToU32_iff (by omega) _).mpr ⟨hb, rfl⟩, .inl (by omega)⟩⟩
      · obtain ⟨z, hz, h2, h3, h4, h5, h6, h7⟩ := go h hm (pre (pre hp))
        have r := row_of_sizage hz
        have hos := r.os
        have hms := r.ms3
        have hit : (s.take (z.hs + (z.ss - z.os))).drop z.hs = d1 := by
          have := (take_prefix_iff.mp (pre hp)).1
          rw [List.length_append, h5, hd, h2] at this
          rw [this, ← h5, List.drop_left]
        have hot : (s.take (z.hs + z.ss)).drop (z.hs + (z.ss - z.os)) = d2 := by
          have := (take_prefix_iff.mp hp).1
          rw [List.length_append, List.length_append, h5, hd, h2, hd2, h3, show z.hs + (z.ss - z.os) + z.os = z.hs + z.ss by omega] at this
          rw [this, show z.hs + (z.ss - z.os) = (h.code ++ d1).length by rw [List.length_append]; omega, List.drop_left]
        obtain ⟨o, ho⟩ := (readOndex_iff (hard := s.take z.hs) (i := Spec.textNum d1) (odx := d2) (by omega) r.os3).mpr
          ⟨hb2, fun hc => hcur (by rw [h4]; exact hc)⟩
        have hpl := hp.length_le
        simp only [List.length_append] at hpl
        refine ⟨z, hz, by omega, .inr ⟨_, by rw [hit]; exact (b64ToU32_iff (by omega) _).mpr ⟨hb, rfl⟩, .inr ⟨o, by rw [hot]; exact ho, ?_⟩⟩⟩
        rw [show h.code.length + h.digits + h.other = z.hs + z.ss by omega]
        split
        · rename_i hf
          rw [h6 hf]
          exact (wireLength_var (r.var hf).1).symm
        · rename_i hf
          exact (h7 hf _).symm

theorem cut_pos {s : Str} {k : Nat} (h : Cut s k) : 0 < k := by
  rcases h with ⟨c, rest, he, hh⟩ | ⟨z, hz, hle, h⟩
  · have := hardage_le hh; omega
  · have r := row_of_sizage hz
    have := r.hs1
    rcases h with rfl | ⟨i, _, rfl | ⟨o, _, rfl⟩⟩
    · omega
    · omega
    · split
      · omega
      · rename_i hf
        have := r.fix hf; omega

end Indexer

/-- C22 (text, all of it). Reading text as an indexed signature panics exactly when a multi-byte character lies across one of the
offsets at which the text is cut. -/
theorem C22_all_text_panics_exactly (E : Env) (s : Str) :
    Indexer.ofText E s = .panic ↔ ∃ k, Spec.IdxCutPoint s k ∧ Spec.MidChar s k := by
  show Indexer.exfil s = .panic ↔ _
  rw [Indexer.exfil_panic_iff]
  constructor
  · rintro ⟨k, hk, hb, hc⟩
    exact ⟨k, (Indexer.cut_iff hk).mp hc, (midChar_iff hk (Indexer.cut_pos hc)).mp hb⟩
  · rintro ⟨k, hc, hm⟩
    have hk : k ≤ s.length := by
      obtain ⟨b, hb, _⟩ := hm
      have := (List.getElem?_eq_some_iff.mp hb).1
      omega
    have hc' := (Indexer.cut_iff hk).mpr hc
    exact ⟨k, hk, (midChar_iff hk (Indexer.cut_pos hc')).mpr hm, hc'⟩

/-- C22 (bytes as text). -/
theorem C22_text_bytes_panics_exactly (E : Env) (b : List UInt8) :
    Indexer.ofTextBytes E b = .panic ↔ utf8Valid b = true ∧ ∃ k, Spec.IdxCutPoint b k ∧ Spec.MidChar b k := by
  rw [← C22_all_text_panics_exactly E]
  show (do let q ← fromUtf8 b; Indexer.exfil q) = _ ↔ _ ∧ Indexer.exfil b = _
  unfold fromUtf8
  split
  · rename_i h; simp [h]
  · rename_i h; simp [h]

namespace Counter

theorem codes_of_sizes : ∀ e ∈ sizes, (e.1, e.2.ss) ∈ Spec.counterCodes := by decide +kernel
theorem sizes_of_codes : ∀ e ∈ Spec.counterCodes, ∃ z, sizage e.1 = .ok z ∧ z.ss = e.2 := by
  intro e he
  have : ∀ e ∈ Spec.counterCodes, ∃ e' ∈ sizes, e'.1 = e.1 ∧ e'.2.ss = e.2 ∧ sizage e'.1 = .ok e'.2 := by decide +kernel
  obtain ⟨e', _, h1, h2, h3⟩ := this e he
  exact ⟨e'.2, by rw [← h1]; exact h3, h2⟩

end Counter

open Counter in
/-- C26 (text, all of it). Reading text as a counter panics exactly when it is one byte long or a multi-byte character lies across one
of the offsets at which the text is cut. -/
theorem C26_all_text_panics_exactly (E : Env) (s : Str) :
    Counter.ofText E s = .panic ↔ s.length = 1 ∨ ∃ k, Spec.CounterCutPoint s k ∧ Spec.MidChar s k := by
  show Counter.exfil s = .panic ↔ _
  by_cases h0 : s = []
  · subst h0
    constructor
    · intro h; cases h
    · rintro (h | ⟨k, _, b, hb, _⟩)
      · cases h
      · simp at hb
  by_cases h1 : s.length = 1
  · match s, h1 with
    | [c], _ => simp [exfil_one c]
  have hpos : 0 < s.length := List.length_pos_iff.mpr h0
  have hmid : ∀ k, 0 < k → Spec.MidChar s k → isBoundary s k = false := by
    intro k h0 hm
    have hk : k ≤ s.length := by
      obtain ⟨b, hb, _⟩ := hm
      have := (List.getElem?_eq_some_iff.mp hb).1
      omega
    exact (midChar_iff hk h0).mpr hm
  have hlen : ∀ k, Spec.MidChar s k → k < s.length := by
    rintro k ⟨b, hb, _⟩
    exact (List.getElem?_eq_some_iff.mp hb).1
  have hm2 : ∀ k, 0 < k → k ≤ s.length → ¬ isBoundary s k = true → Spec.MidChar s k := fun k h0 hk hb => (midChar_iff hk h0).mp (by simpa using hb)
  simp only [h1, false_or]
  unfold Counter.exfil
  rw [if_neg h0, sliceStr_if (Nat.zero_le _) (by omega) (isBoundary_zero _), List.drop_zero]
  by_cases hb1 : isBoundary s 2 = true
  case neg =>
    rw [if_neg hb1, Res.panic_bind]
    exact ⟨fun _ => ⟨2, .inl rfl, hm2 2 (by omega) (by omega) hb1⟩, fun _ => rfl⟩
  rw [if_pos hb1, Res.ok_bind]
  have hcodes : ∀ {code d}, (code, d) ∈ Spec.counterCodes → code <+: s → ∃ z, sizage code = .ok z ∧ z.ss = d ∧ code.length = z.hs ∧
      s.take z.hs = code ∧ hardage (s.take 2) = .ok z.hs := by
    intro code d hm hp
    obtain ⟨z, hz, hd⟩ := sizes_of_codes _ hm
    have r := row_of_mem (mem_of_sizage hz)
    have ht := (take_prefix_iff.mp hp).1
    have h2 : s.take 2 = code.take 2 := by
      rw [← ht, List.take_take, Nat.min_eq_left (by rw [r.len]; exact r.hs2)]
    exact ⟨z, hz, hd, r.len, by rw [← r.len]; exact ht, by rw [h2]; exact r.hard⟩
  cases hh : hardage (s.take 2) with
  | panic => exact absurd hh (hardage_ne_panic _)
  | err e =>
    rw [Res.err_bind]
    refine ⟨fun h => (by cases h), ?_⟩
    rintro ⟨k, hc | ⟨hc, _⟩ | ⟨hc, _⟩ | ⟨code, d, hm, hc, _⟩, hmc⟩
    · rw [hc] at hmc; rw [hmid 2 (by omega) hmc] at hb1; cases hb1
    · rw [show s.take 2 = lit "-0" from (take_prefix_iff.mp hc).1] at hh; cases hh
    · rw [show s.take 2 = lit "--" from (take_prefix_iff.mp hc).1] at hh; cases hh
    · obtain ⟨z, _, _, _, _, h⟩ := hcodes hm hc
      rw [h] at hh; cases hh
  | ok hs =>
  rw [Res.ok_bind]
  have hhs : (hs = 2 ∧ s.take 2 ≠ lit "-0" ∧ s.take 2 ≠ lit "--") ∨ (hs = 3 ∧ s.take 2 = lit "-0") ∨ (hs = 5 ∧ s.take 2 = lit "--") := by
    unfold hardage at hh
    split at hh
    · rename_i hc
      left
      injection hh with hh
      refine ⟨hh.symm, ?_, ?_⟩ <;> intro he <;> rw [he] at hc <;> revert hc <;> decide
    · split at hh
      · rename_i hc; injection hh with hh; exact .inr (.inl ⟨hh.symm, hc⟩)
      · split at hh
        · rename_i hc; injection hh with hh; exact .inr (.inr ⟨hh.symm, hc⟩)
        · cases hh
  have hcut : ∀ k, Spec.CounterCutPoint s k ↔ k = 2 ∨ k = hs ∨ (∃ code digits, (code, digits) ∈ Spec.counterCodes ∧ code <+: s ∧ k = code.length + digits) := by
    intro k
    unfold Spec.CounterCutPoint
    have p0 : lit "-0" <+: s ↔ s.take 2 = lit "-0" := by rw [take_prefix_iff]; exact ⟨fun h => h.1, fun h => ⟨h, by show 2 ≤ _; omega⟩⟩
    have p1 : lit "--" <+: s ↔ s.take 2 = lit "--" := by rw [take_prefix_iff]; exact ⟨fun h => h.1, fun h => ⟨h, by show 2 ≤ _; omega⟩⟩
    rw [p0, p1]
    have hne : lit "-0" ≠ lit "--" := by decide
    rcases hhs with ⟨rfl, a, b⟩ | ⟨rfl, a⟩ | ⟨rfl, a⟩
    · simp only [a, b, false_and, false_or]
      constructor
      · rintro (h | h)
        · exact .inl h
        · exact .inr (.inr h)
      · rintro (h | h | h)
        · exact .inl h
        · exact .inl h
        · exact .inr h
    · simp [a, hne]
    · simp [a, hne.symm]
  simp only [hcut]
  have hs5 : 2 ≤ hs := by omega
  by_cases hl : s.length < hs
  · rw [if_pos hl]
    refine ⟨fun h => (by cases h), ?_⟩
    rintro ⟨k, hc | hc | ⟨code, d, hm, hc, rfl⟩, hmc⟩
    · rw [hc] at hmc; rw [hmid 2 (by omega) hmc] at hb1; cases hb1
    · have := hlen _ hmc; omega
    · obtain ⟨z, hz, hd, hcl, _, h⟩ := hcodes hm hc
      rw [hh] at h
      have := Res.ok.inj h
      have := hlen _ hmc; omega
  rw [if_neg hl, sliceStr_if (Nat.zero_le _) (by omega) (isBoundary_zero _), List.drop_zero]
  by_cases hb2 : isBoundary s hs = true
  case neg =>
    rw [if_neg hb2, Res.panic_bind]
    exact ⟨fun _ => ⟨hs, .inr (.inl rfl), hm2 hs (by omega) (by omega) hb2⟩, fun _ => rfl⟩
  rw [if_pos hb2, Res.ok_bind]
  have hrest : ∀ k, Spec.MidChar s k → (k = 2 ∨ k = hs ∨ ∃ code digits, (code, digits) ∈ Spec.counterCodes ∧ code <+: s ∧ k = code.length + digits) →
      ∃ z, sizage (s.take hs) = .ok z ∧ z.hs = hs ∧ k = z.hs + z.ss := by
    rintro k hmc (rfl | rfl | ⟨code, d, hm, hc, rfl⟩)
    · rw [hmid 2 (by omega) hmc] at hb1; cases hb1
    · rw [hmid _ (by omega) hmc] at hb2; cases hb2
    · obtain ⟨z, hz, hd, hcl, ht, h⟩ := hcodes hm hc
      rw [hh] at h
      have := Res.ok.inj h
      subst this
      exact ⟨z, by rw [ht]; exact hz, rfl, by omega⟩
  cases hz : sizage (s.take hs) with
  | panic => exact absurd hz (sizage_ne_panic _)
  | err e =>
    rw [Res.err_bind]
    refine ⟨fun h => (by cases h), ?_⟩
    rintro ⟨k, hc, hmc⟩
    obtain ⟨z, hz', _⟩ := hrest k hmc hc
    rw [hz] at hz'; cases hz'
  | ok z =>
  rw [Res.ok_bind]
  have r := row_of_mem (mem_of_sizage hz)
  have hzh : z.hs = hs := by
    have := r.len
    rw [List.length_take] at this; omega
  by_cases hl2 : s.length < z.hs + z.ss
  · rw [if_pos hl2]
    refine ⟨fun h => (by cases h), ?_⟩
    rintro ⟨k, hc, hmc⟩
    obtain ⟨z', hz', h1, h2⟩ := hrest k hmc hc
    rw [hz] at hz'
    obtain rfl := Res.ok.inj hz'
    have := hlen _ hmc; omega
  rw [if_neg hl2, sliceStr_if (by omega) (by omega) (by rw [hzh]; exact hb2)]
  by_cases hb3 : isBoundary s (z.hs + z.ss) = true
  · rw [if_pos hb3, Res.ok_bind]
    refine ⟨fun h => ?_, ?_⟩
    · rcases Res.bind_eq_panic.mp h with h | ⟨n, _, h⟩
      · exact absurd h (b64ToUint_ne_panic _ _ _)
      · cases h
    · rintro ⟨k, hc, hmc⟩
      obtain ⟨z', hz', h1, h2⟩ := hrest k hmc hc
      rw [hz] at hz'
      obtain rfl := Res.ok.inj hz'
      rw [h2] at hmc
      rw [hmid _ (by omega) hmc] at hb3; cases hb3
  · rw [if_neg hb3, Res.panic_bind]
    refine ⟨fun _ => ⟨_, .inr (.inr ⟨s.take hs, z.ss, codes_of_sizes _ (mem_of_sizage hz), List.take_prefix _ _, rfl⟩), ?_⟩, fun _ => rfl⟩
    rw [r.len]
    exact hm2 _ (by omega) (by omega) hb3

/-- C26 (bytes as text). -/
theorem C26_text_bytes_panics_exactly (E : Env) (b : List UInt8) :
    Counter.ofTextBytes E b = .panic ↔ utf8Valid b = true ∧ (b.length = 1 ∨ ∃ k, Spec.CounterCutPoint b k ∧ Spec.MidChar b k) := by
  rw [← C26_all_text_panics_exactly E]
  show (do let q ← fromUtf8 b; Counter.exfil q) = _ ↔ _ ∧ Counter.exfil b = _
  unfold fromUtf8
  split
  · rename_i h; simp [h]
  · rename_i h; simp [h]

/-- Non-vacuity: a two-byte character across the end of the index digits; across the end of the signature; across the end of a count. -/
example : Spec.IdxCutPoint (lit "2AA" ++ [0xC3, 0xA9] ++ lit "A") 4 ∧ Spec.MidChar (lit "2AA" ++ [0xC3, 0xA9] ++ lit "A") 4 :=
  ⟨.inr (.inl ⟨⟨lit "2A", 2, 2, false, some 64⟩, by decide +kernel, by decide +kernel, by decide +kernel, by decide +kernel⟩),
    0xA9, by decide +kernel, by decide, by decide⟩
example : Indexer.ofText Env.debug (lit "2AA" ++ [0xC3, 0xA9] ++ lit "A") = .panic := by decide +kernel
example : Spec.IdxCutPoint (lit "0zAB" ++ lit "AAA" ++ [0xC3, 0xA9]) 8 ∧ Spec.MidChar (lit "0zAB" ++ lit "AAA" ++ [0xC3, 0xA9]) 8 :=
  ⟨.inr (.inr (.inr ⟨⟨lit "0z", 2, 0, false, none⟩, by decide +kernel, lit "AB", [], by decide +kernel, rfl, by unfold Spec.IsB64Text; decide +kernel,
    rfl, by unfold Spec.IsB64Text; decide +kernel, fun h => (by cases h), by decide +kernel⟩)), 0xA9, by decide +kernel, by decide, by decide⟩
example : Indexer.ofText Env.debug (lit "0zAB" ++ lit "AAA" ++ [0xC3, 0xA9]) = .panic := by decide +kernel
example : Spec.CounterCutPoint (lit "-AA" ++ [0xC3, 0xA9]) 4 ∧ Spec.MidChar (lit "-AA" ++ [0xC3, 0xA9]) 4 :=
  ⟨.inr (.inr (.inr ⟨lit "-A", 2, by decide +kernel, by decide +kernel, rfl⟩)), 0xA9, by decide +kernel, by decide, by decide⟩

end Cesride
