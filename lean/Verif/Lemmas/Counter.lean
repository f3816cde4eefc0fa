import Verif.Model.Counter
import Verif.Lemmas.Indexer2
import Verif.Lemmas.Body
import Verif.Lemmas.Bits

/-! # Lemmas about `Counter` -/

namespace Cesride
namespace Counter

/-- Sextets of a code. -/
def codeD (code : Str) : List Nat := code.map (fun c => Spec.alphabet.idxOf c)

/-- Facts about a table row. -/
structure Row (code : Str) (z : CSizage) : Prop where
  len : code.length = z.hs
  fs : z.fs = z.hs + z.ss
  m4 : (z.hs + z.ss) % 4 = 0
  le8 : z.hs + z.ss ≤ 8
  ss5 : z.ss ≤ 5
  ss0 : 0 < z.ss
  hs2 : 2 ≤ z.hs
  hard : hardage (code.take 2) = .ok z.hs
  enc : encD (codeD code) = code
  lt : ∀ x ∈ codeD code, x < 64
  bard : bardage ((codeD code).take 2) = .ok z.hs
  first : ∃ y l, codeD code = 62 :: y :: l

theorem row_all : ∀ e ∈ sizes, e.1.length = e.2.hs ∧ e.2.fs = e.2.hs + e.2.ss ∧ (e.2.hs + e.2.ss) % 4 = 0 ∧ e.2.hs + e.2.ss ≤ 8 ∧
    e.2.ss ≤ 5 ∧ 0 < e.2.ss ∧ 2 ≤ e.2.hs ∧ hardage (e.1.take 2) = .ok e.2.hs ∧ encD (codeD e.1) = e.1 ∧ (∀ x ∈ codeD e.1, x < 64) ∧
    bardage ((codeD e.1).take 2) = .ok e.2.hs ∧ (codeD e.1).head? = some 62 ∧ sizage e.1 = .ok e.2 := by decide +kernel

theorem lookup_mem {l : List (Str × CSizage)} {s : Str} {z : CSizage} (h : l.lookup s = some z) : (s, z) ∈ l := by
  induction l with
  | nil => cases h
  | cons e es ih =>
    obtain ⟨k, v⟩ := e
    rw [List.lookup_cons] at h
    split at h
    · rename_i hk
      injection h with h
      have := eq_of_beq hk
      subst this; subst h
      exact List.mem_cons_self ..
    · exact List.mem_cons_of_mem _ (ih h)

theorem mem_of_sizage {s : Str} {z : CSizage} (h : sizage s = .ok z) : (s, z) ∈ sizes := by
  unfold sizage at h
  split at h
  · rename_i w hw
    injection h with h
    subst h
    exact lookup_mem hw
  · cases h

theorem row_of_mem {code : Str} {z : CSizage} (h : (code, z) ∈ sizes) : Row code z := by
  obtain ⟨h1, h2, h3, h4, h5, h6, h7, h8, h9, h10, h11, h12, _⟩ := row_all _ h
  dsimp only at *
  refine ⟨h1, h2, h3, h4, h5, h6, h7, h8, h9, h10, h11, ?_⟩
  have hl : (codeD code).length = z.hs := by simpa [codeD] using h1
  match hc : codeD code with
  | [] => rw [hc] at hl; simp at hl; omega
  | [x] => rw [hc] at hl; simp at hl; omega
  | x :: y :: l =>
    rw [hc] at h12
    simp at h12
    exact ⟨y, l, by rw [h12]⟩

theorem sizage_of_mem {code : Str} {z : CSizage} (h : (code, z) ∈ sizes) : sizage code = .ok z :=
  (row_all _ h).2.2.2.2.2.2.2.2.2.2.2.2

/-- The sextets of a counter. -/
def allD (code : Str) (ss count : Nat) : List Nat := codeD code ++ digitsB 64 ss count

theorem Row.allD_lt {code : Str} {z : CSizage} (r : Row code z) (n : Nat) : ∀ x ∈ allD code z.ss n, x < 64 := by
  intro x hx
  rcases List.mem_append.mp hx with h | h
  · exact r.lt x h
  · exact digitsB_lt (by decide) _ _ x h

theorem Row.codeD_length {code : Str} {z : CSizage} (r : Row code z) : (codeD code).length = z.hs := by
  simpa [codeD] using r.len

theorem Row.allD_length {code : Str} {z : CSizage} (r : Row code z) (n : Nat) : (allD code z.ss n).length = z.hs + z.ss := by
  simp [allD, r.codeD_length, digitsB_length]

theorem Row.encD_allD {code : Str} {z : CSizage} (r : Row code z) (n : Nat) :
    encD (allD code z.ss n) = code ++ encD (digitsB 64 z.ss n) := by
  rw [allD, encD_append, r.enc]

theorem infil_eq (E : Env) {code : Str} {z : CSizage} (h : (code, z) ∈ sizes) {n : Nat} (hn : n < 64 ^ z.ss) :
    infil E ⟨code, n⟩ = .ok (encD (allD code z.ss n)) := by
  have r := row_of_mem h
  have h64 : n < 2 ^ 64 := by
    have : 64 ^ z.ss ≤ 64 ^ 5 := Nat.pow_le_pow_right (by decide) r.ss5
    omega
  unfold infil
  rw [sizage_of_mem h]
  simp only [Res.ok_bind]
  rw [if_neg (by have := r.fs; have := r.m4; omega), if_neg (by omega), uintToB64_eq E hn h64]
  simp only [Res.ok_bind]
  rw [r.encD_allD, if_neg]
  simp [r.len, digitsB_length]

theorem binfil_eq (E : Env) {code : Str} {z : CSizage} (h : (code, z) ∈ sizes) {n : Nat} (hn : n < 64 ^ z.ss) :
    binfil E ⟨code, n⟩ = .ok (packD (allD code z.ss n)) := by
  have r := row_of_mem h
  unfold binfil
  rw [infil_eq E h hn]
  simp only [Res.ok_bind]
  exact codeB64ToB2_encD (r.allD_lt n) (by rw [r.allD_length]; have := r.le8; omega)

theorem pow_ss_lt {code : Str} {z : CSizage} (r : Row code z) : 64 ^ z.ss ≤ 2 ^ 32 := by
  have : 64 ^ z.ss ≤ 64 ^ 5 := Nat.pow_le_pow_right (by decide) r.ss5
  omega

theorem exfil_text {code : Str} {z : CSizage} (h : (code, z) ∈ sizes) {n : Nat} (hn : n < 64 ^ z.ss) {rest : Str}
    (hr : utf8Valid rest = true) : exfil (encD (allD code z.ss n) ++ rest) = .ok ⟨code, n⟩ := by
  have r := row_of_mem h
  have ha := ascii_encD (r.allD_lt n)
  have hl : (encD (allD code z.ss n)).length = z.hs + z.ss := by rw [encD_length, r.allD_length]
  have h2 := r.hs2
  have hcode : ∀ k ≤ z.hs, (encD (allD code z.ss n)).take k = code.take k := by
    intro k hk
    rw [r.encD_allD, List.take_append_of_le_length (by rw [r.len]; exact hk)]
  have hdig : ((encD (allD code z.ss n)).take (z.hs + z.ss)).drop z.hs = encD (digitsB 64 z.ss n) := by
    rw [List.take_of_length_le (by omega), r.encD_allD, ← r.len, List.drop_left]
  unfold exfil
  rw [if_neg (by intro h0; have := congrArg List.length h0; simp only [List.length_append, hl, List.length_nil] at this; omega)]
  rw [sliceStr_prefix ha hr (by omega) (by omega), List.drop_zero, hcode 2 h2]
  simp only [Res.ok_bind, r.hard]
  rw [if_neg (by simp only [List.length_append, hl]; omega), sliceStr_prefix ha hr (by omega) (by omega), List.drop_zero,
    hcode z.hs (Nat.le_refl _), List.take_of_length_le (by rw [r.len]; exact Nat.le_refl _)]
  simp only [Res.ok_bind, sizage_of_mem h]
  rw [if_neg (by simp only [List.length_append, hl]; omega), sliceStr_prefix ha hr (by omega) (by omega), hdig]
  have hp := pow_ss_lt r
  have hlt := digitsB_lt (show 0 < 64 by decide) z.ss n
  have hs5 := r.ss5
  simp only [Res.ok_bind]
  rw [b64ToU64_encD hlt (by rw [digitsB_length]; omega), valB_digitsB, Nat.mod_eq_of_lt hn]
  simp only [Res.ok_bind]
  rw [Nat.mod_eq_of_lt (by omega)]

/-- Shape of accepted text. -/
theorem exfil_inv {s : Str} {x : Counter} (hx : exfil s = .ok x) :
    ∃ z, (x.code, z) ∈ sizes ∧ x.count < 64 ^ z.ss ∧ z.hs + z.ss ≤ s.length ∧ s.take (z.hs + z.ss) = encD (allD x.code z.ss x.count) := by
  unfold exfil at hx
  split at hx
  · cases hx
  obtain ⟨first, h1, hx⟩ := Res.bind_eq_ok.mp hx
  obtain ⟨hs, h2, hx⟩ := Res.bind_eq_ok.mp hx
  split at hx
  · cases hx
  obtain ⟨hard, h3, hx⟩ := Res.bind_eq_ok.mp hx
  obtain ⟨z, h4, hx⟩ := Res.bind_eq_ok.mp hx
  dsimp only at hx
  split at hx
  · cases hx
  rename_i hlen
  obtain ⟨t, h5, hx⟩ := Res.bind_eq_ok.mp hx
  obtain ⟨n, h6, hx⟩ := Res.bind_eq_ok.mp hx
  injection hx with hx
  subst hx
  have hmem := mem_of_sizage h4
  have r := row_of_mem hmem
  obtain ⟨_, _, h3⟩ := sliceStr_ok h3
  rw [List.drop_zero] at h3
  have hhs : hard = s.take z.hs := by
    have := r.len
    rw [h3, List.length_take, Nat.min_eq_left (by omega)] at this
    rw [h3, this]
  obtain ⟨_, _, h5⟩ := sliceStr_ok h5
  have htl : t.length = z.ss := by rw [h5]; simp; omega
  obtain ⟨d, hd, hdt⟩ := exists_encD (b64ToUint_ok_isB64 h6)
  have hdl : d.length = z.ss := by rw [← htl, ← hdt, encD_length]
  have hs5 := r.ss5
  rw [← hdt, b64ToU64_encD hd (by omega)] at h6
  injection h6 with h6
  have hlt := valB_lt hd
  rw [hdl, h6] at hlt
  have hp := pow_ss_lt r
  refine ⟨z, hmem, ?_, by omega, ?_⟩
  · show n % 2 ^ 32 < _
    rw [Nat.mod_eq_of_lt (by omega)]; exact hlt
  · show _ = encD (allD hard z.ss (n % 2 ^ 32))
    rw [Nat.mod_eq_of_lt (by omega), r.encD_allD]
    have : digitsB 64 z.ss n = d := by rw [← h6, ← hdl]; exact digitsB_valB hd
    rw [this, hdt, h5, hhs]
    have := List.take_append_drop z.hs (s.take (z.hs + z.ss))
    rw [List.take_take, show min z.hs (z.hs + z.ss) = z.hs by omega] at this
    exact this.symm

theorem bexfil_data (E : Env) {code : Str} {z : CSizage} (h : (code, z) ∈ sizes) {n : Nat} (hn : n < 64 ^ z.ss) {b : List UInt8}
    (hl : (z.hs + z.ss + 1) * 3 / 4 ≤ b.length) (hb : (sext b).take (z.hs + z.ss) = allD code z.ss n) : bexfil E b = .ok ⟨code, n⟩ := by
  have r := row_of_mem h
  have h2 := r.hs2
  have h8 := r.le8
  have h0 := r.ss0
  have hcd : ∀ k ≤ z.hs, (sext b).take k = (codeD code).take k := by
    intro k hk
    have : (sext b).take k = ((sext b).take (z.hs + z.ss)).take k := by rw [List.take_take]; congr 1; omega
    rw [this, hb, allD, List.take_append_of_le_length (by rw [r.codeD_length]; exact hk)]
  unfold bexfil
  rw [if_neg (by intro h0; rw [h0, List.length_nil] at hl; omega), nabSextets_eq b (by omega)]
  simp only [Res.ok_bind]
  rw [hcd 2 h2]
  obtain ⟨y, l, hf⟩ := r.first
  have hbd := r.bard
  rw [hf] at hbd ⊢
  simp only [List.take_succ_cons, List.take_zero] at hbd ⊢
  rw [if_neg (by omega), hbd]
  simp only [Res.ok_bind]
  rw [if_neg (by omega), codeB2ToB64_eq E b (by omega) (by omega), hcd z.hs (Nat.le_refl _),
    List.take_of_length_le (by rw [r.codeD_length]; exact Nat.le_refl _), r.enc]
  simp only [Res.ok_bind, sizage_of_mem h]
  rw [if_neg (by omega), codeB2ToB64_eq E b (by omega) (by omega), hb]
  simp only [Res.ok_bind]
  rw [sliceStr_ascii (ascii_encD (r.allD_lt n)) (by omega) (by rw [encD_length, r.allD_length]; exact Nat.le_refl _)]
  have hdig : ((encD (allD code z.ss n)).take (z.hs + z.ss)).drop z.hs = encD (digitsB 64 z.ss n) := by
    rw [List.take_of_length_le (by rw [encD_length, r.allD_length]; exact Nat.le_refl _), r.encD_allD, ← r.len, List.drop_left]
  rw [hdig]
  have hlt := digitsB_lt (show 0 < 64 by decide) z.ss n
  simp only [Res.ok_bind]
  rw [b64ToU32_encD hlt (by rw [digitsB_length]; exact r.ss5), valB_digitsB, Nat.mod_eq_of_lt hn]
  rfl

theorem bexfil_binary (E : Env) {code : Str} {z : CSizage} (h : (code, z) ∈ sizes) {n : Nat} (hn : n < 64 ^ z.ss) (rest : List UInt8) :
    bexfil E (packD (allD code z.ss n) ++ rest) = .ok ⟨code, n⟩ := by
  have r := row_of_mem h
  apply bexfil_data E h hn
  · simp only [List.length_append, packD_length, r.allD_length]; omega
  · have := sext_packD (r.allD_lt n) rest
    rwa [r.allD_length] at this

theorem bardage_two {a b : Nat} {hs : Nat} (h : bardage [a, b] = .ok hs) : a = 62 ∧ 2 ≤ hs ∧ hs ≤ 5 := by
  unfold bardage at h
  split at h
  · rename_i hc
    injection h with h
    simp only [List.contains_cons, List.contains_nil, Bool.or_false, Bool.or_eq_true, beq_iff_eq, List.cons.injEq] at hc
    omega
  · split at h
    · rename_i hc; injection h with h; simp only [List.cons.injEq] at hc; omega
    · split at h
      · rename_i hc; injection h with h; simp only [List.cons.injEq] at hc; omega
      · cases h

/-- Shape of accepted binary. -/
theorem bexfil_inv (E : Env) {b : List UInt8} {x : Counter} (hx : bexfil E b = .ok x) :
    ∃ z, (x.code, z) ∈ sizes ∧ x.count < 64 ^ z.ss ∧ (z.hs + z.ss + 1) * 3 / 4 ≤ b.length ∧
      (sext b).take (z.hs + z.ss) = allD x.code z.ss x.count := by
  unfold bexfil at hx
  split at hx
  · cases hx
  obtain ⟨first, h1, hx⟩ := Res.bind_eq_ok.mp hx
  split at hx
  · cases hx
  rename_i f0 fr
  split at hx
  · split at hx <;> cases hx
  obtain ⟨hs, h2, hx⟩ := Res.bind_eq_ok.mp hx
  dsimp only at hx
  split at hx
  · cases hx
  rename_i hlen1
  obtain ⟨hard, h3, hx⟩ := Res.bind_eq_ok.mp hx
  obtain ⟨z, h4, hx⟩ := Res.bind_eq_ok.mp hx
  split at hx
  · cases hx
  rename_i hlen
  obtain ⟨both, h5, hx⟩ := Res.bind_eq_ok.mp hx
  obtain ⟨t, h6, hx⟩ := Res.bind_eq_ok.mp hx
  obtain ⟨n, h7, hx⟩ := Res.bind_eq_ok.mp hx
  injection hx with hx
  subst hx
  have hmem := mem_of_sizage h4
  have r := row_of_mem hmem
  have hs8 : hs ≤ 5 := by
    have h1b : 2 ≤ b.length := by
      apply Classical.byContradiction
      intro hno
      unfold nabSextets at h1
      simp [show b.length < 2 by omega] at h1
    rw [nabSextets_eq b (by omega)] at h1
    injection h1 with h1
    have hl := congrArg List.length h1
    rw [List.length_take, sext_length] at hl
    match fr, hl with
    | [y], _ => exact (bardage_two h2).2.2
    | [], hl => simp at hl; omega
    | _ :: _ :: _, hl => simp at hl; omega
  have h8 := r.le8
  rw [codeB2ToB64_eq E b (by omega) (by omega)] at h3 h5
  injection h3 with h3
  injection h5 with h5
  have hslen : (sext b).length = (b.length / 3 + 1) * 4 := sext_length b
  have hhs : hs = z.hs := by
    have := r.len
    rw [← h3, encD_length, List.length_take] at this
    omega
  subst hhs
  have hlt : ∀ x ∈ sext b, x < 64 := sext_lt b
  obtain ⟨_, _, h6⟩ := sliceStr_ok h6
  have htd : t = encD (((sext b).take (z.hs + z.ss)).drop z.hs) := by
    rw [h6, ← h5, List.take_of_length_le (by rw [encD_length, List.length_take]; omega), encD_drop]
  have hdl : (((sext b).take (z.hs + z.ss)).drop z.hs).length = z.ss := by simp; omega
  have hdlt : ∀ x ∈ ((sext b).take (z.hs + z.ss)).drop z.hs, x < 64 :=
    fun x hx => hlt x (List.mem_of_mem_take (List.mem_of_mem_drop hx))
  rw [htd, b64ToU32_encD hdlt (by rw [hdl]; exact r.ss5)] at h7
  injection h7 with h7
  have hv := valB_lt hdlt
  rw [hdl, h7] at hv
  refine ⟨z, hmem, hv, by omega, ?_⟩
  have hcd : (sext b).take z.hs = codeD hard := by
    apply encD_inj (fun x hx => hlt x (List.mem_of_mem_take hx)) r.lt
    rw [h3, r.enc]
  have hdd : digitsB 64 z.ss n = ((sext b).take (z.hs + z.ss)).drop z.hs := by
    have := digitsB_valB hdlt
    rwa [hdl, h7] at this
  rw [allD, hdd, ← hcd]
  have := List.take_append_drop z.hs ((sext b).take (z.hs + z.ss))
  rw [List.take_take, show min z.hs (z.hs + z.ss) = z.hs by omega] at this
  exact this.symm

theorem hardage_two {s : Str} {hs : Nat} (h : hardage s = .ok hs) : (hs = 2 ∨ hs = 3 ∨ hs = 5) ∧ ∃ y, s = [ch '-', y] ∧ y < 128 := by
  unfold hardage at h
  split at h
  · rename_i hc
    injection h with h
    simp only [List.contains_cons, List.contains_nil, Bool.or_false, Bool.or_eq_true, beq_iff_eq] at hc
    refine ⟨.inl h.symm, ?_⟩
    rcases hc with h|h|h|h|h|h|h|h|h|h|h|h|h <;> subst h <;> exact ⟨_, rfl, by decide⟩
  · split at h
    · rename_i hc; injection h with h; subst hc; exact ⟨.inr (.inl h.symm), _, rfl, by decide⟩
    · split at h
      · rename_i hc; injection h with h; subst hc; exact ⟨.inr (.inr h.symm), _, rfl, by decide⟩
      · cases h

theorem sizage_ne_panic (s : Str) : sizage s ≠ .panic := by unfold sizage; split <;> simp
theorem hardage_ne_panic (s : Str) : hardage s ≠ .panic := by
  unfold hardage; repeat' split
  all_goals simp
theorem bardage_ne_panic (s : List Nat) : bardage s ≠ .panic := by
  unfold bardage; repeat' split
  all_goals simp

/-- Text parsing panics only when a slice offset is past the end of a one-byte text or inside a character. -/
theorem exfil_panic {s : Str} (h : exfil s = .panic) : s.length = 1 ∨ ∃ i ≤ s.length, isBoundary s i = false := by
  unfold exfil at h
  split at h
  · cases h
  rename_i hne
  have hpos : 0 < s.length := List.length_pos_iff.mpr hne
  by_cases h1 : s.length = 1
  · exact .inl h1
  right
  rcases Res.bind_eq_panic.mp h with h | ⟨first, h1, h⟩
  · rcases sliceStr_panic h (by omega) (by omega) with h | h
    · exact ⟨0, by omega, h⟩
    · exact ⟨2, by omega, h⟩
  rcases Res.bind_eq_panic.mp h with h | ⟨hs, h2, h⟩
  · exact absurd h (hardage_ne_panic _)
  split at h
  · cases h
  rcases Res.bind_eq_panic.mp h with h | ⟨hard, h3, h⟩
  · rcases sliceStr_panic h (by omega) (by omega) with h | h
    · exact ⟨0, by omega, h⟩
    · exact ⟨hs, by omega, h⟩
  rcases Res.bind_eq_panic.mp h with h | ⟨z, h4, h⟩
  · exact absurd h (sizage_ne_panic _)
  dsimp only at h
  split at h
  · cases h
  rcases Res.bind_eq_panic.mp h with h | ⟨t, h5, h⟩
  · rcases sliceStr_panic h (by omega) (by omega) with h | h
    · exact ⟨z.hs, by omega, h⟩
    · exact ⟨z.hs + z.ss, by omega, h⟩
  rcases Res.bind_eq_panic.mp h with h | ⟨n, h6, h⟩
  · exact absurd h (b64ToUint_ne_panic _ _ _)
  · cases h

theorem exfil_one (c : UInt8) : exfil [c] = .panic := by
  simp [exfil, sliceStr]

theorem bexfil_ne_panic (E : Env) (b : List UInt8) : bexfil E b ≠ .panic := by
  intro h
  unfold bexfil at h
  split at h
  · cases h
  by_cases h2 : 2 ≤ b.length
  · rw [nabSextets_eq b (by omega)] at h
    simp only [Res.ok_bind] at h
    have hl : ((sext b).take 2).length = 2 := by rw [List.length_take, sext_length]; omega
    match hm : (sext b).take 2, hl with
    | [f0, f1], _ =>
      rw [hm] at h
      dsimp only at h
      split at h
      · split at h <;> cases h
      rcases Res.bind_eq_panic.mp h with h | ⟨hs, h3, h⟩
      · exact absurd h (bardage_ne_panic _)
      have hb := bardage_two h3
      split at h
      · cases h
      rw [codeB2ToB64_eq E b (by omega) (by omega)] at h
      simp only [Res.ok_bind] at h
      rcases Res.bind_eq_panic.mp h with h | ⟨z, h4, h⟩
      · exact absurd h (sizage_ne_panic _)
      have r := row_of_mem (mem_of_sizage h4)
      have h8 := r.le8
      have hl := r.len
      rw [encD_length, List.length_take, sext_length] at hl
      split at h
      · cases h
      rw [codeB2ToB64_eq E b (by omega) (by omega)] at h
      simp only [Res.ok_bind] at h
      have ha : Ascii (encD ((sext b).take (z.hs + z.ss))) := ascii_encD (fun x hx => sext_lt b x (List.mem_of_mem_take hx))
      rw [sliceStr_ascii ha (by omega) (by rw [encD_length, List.length_take, sext_length]; omega)] at h
      simp only [Res.ok_bind] at h
      rcases Res.bind_eq_panic.mp h with h | ⟨n, h6, h⟩
      · exact absurd h (b64ToUint_ne_panic _ _ _)
      · cases h
  · unfold nabSextets at h
    simp only [show b.length < (2 + 1) * 3 / 4 by omega, if_true, Res.err_bind] at h
    cases h

theorem exfil_truncated {code : Str} {z : CSizage} (h : (code, z) ∈ sizes) {n k : Nat} (hk : k < z.hs + z.ss) :
    exfil ((encD (allD code z.ss n)).take k) =
      if k = 0 then .err .emptyMaterial else if k = 1 then .panic else .err .shortage := by
  have r := row_of_mem h
  have ha := ascii_encD (r.allD_lt n)
  have hl : (encD (allD code z.ss n)).length = z.hs + z.ss := by rw [encD_length, r.allD_length]
  have hkl : ((encD (allD code z.ss n)).take k).length = k := by rw [List.length_take]; omega
  by_cases h0 : k = 0
  · subst h0; simp [exfil]
  rw [if_neg h0]
  by_cases h1 : k = 1
  · subst h1
    match hm : (encD (allD code z.ss n)).take 1, hkl with
    | [c], _ => simp [exfil_one]
  rw [if_neg h1]
  have h2 := r.hs2
  have hcode : ∀ j ≤ z.hs, j ≤ k → ((encD (allD code z.ss n)).take k).take j = code.take j := by
    intro j hj hjk
    rw [List.take_take, Nat.min_eq_left hjk, r.encD_allD, List.take_append_of_le_length (by rw [r.len]; exact hj)]
  have hat : Ascii ((encD (allD code z.ss n)).take k) := fun c hc => ha c (List.mem_of_mem_take hc)
  unfold exfil
  rw [if_neg (by intro h0; rw [h0] at hkl; simp at hkl; omega)]
  rw [sliceStr_ascii hat (by omega) (by omega), List.drop_zero, hcode 2 h2 (by omega)]
  simp only [Res.ok_bind, r.hard]
  by_cases hhs : k < z.hs
  · rw [if_pos (by omega)]
  rw [if_neg (by omega), sliceStr_ascii hat (by omega) (by omega), List.drop_zero, hcode z.hs (Nat.le_refl _) (by omega),
    List.take_of_length_le (by rw [r.len]; exact Nat.le_refl _)]
  simp only [Res.ok_bind, sizage_of_mem h]
  rw [if_pos (by omega)]

theorem bexfil_truncated (E : Env) {code : Str} {z : CSizage} (h : (code, z) ∈ sizes) {n k : Nat} (hk : k < (z.hs + z.ss) * 3 / 4) :
    bexfil E ((packD (allD code z.ss n)).take k) =
      if k = 0 then .err .emptyMaterial else if k = 1 then .err .tooSmall else .err .shortage := by
  have r := row_of_mem h
  have hm4 := r.m4
  have h8 := r.le8
  have h2 := r.hs2
  have hlen : (packD (allD code z.ss n)).length = (z.hs + z.ss + 1) * 3 / 4 := by rw [packD_length, r.allD_length]
  by_cases h0 : k = 0
  · subst h0; simp [bexfil]
  rw [if_neg h0]
  generalize hb : (packD (allD code z.ss n)).take k = b
  have hkl : b.length = k := by rw [← hb, List.length_take, hlen]; omega
  have hne : b ≠ [] := by intro h; rw [h] at hkl; simp at hkl; omega
  by_cases h1 : k = 1
  · unfold bexfil nabSextets
    rw [if_neg hne]
    simp only [show b.length < (2 + 1) * 3 / 4 by omega, if_true, Res.err_bind, h1]
  rw [if_neg h1]
  have hsx : ∀ j, (j + 1) * 3 / 4 ≤ k → j ≤ z.hs + z.ss → (sext b).take j = (allD code z.ss n).take j := by
    intro j hj hjl
    have hjlen : ((sext b).take j).length = j := by rw [List.length_take, sext_length]; omega
    apply valB_inj (b := 64) (fun x hx => sext_lt _ x (List.mem_of_mem_take hx))
      (fun x hx => r.allD_lt n x (List.mem_of_mem_take hx))
    · rw [hjlen, List.length_take, r.allD_length]; omega
    · rw [valB_sext_take b (by omega), ← hb, List.take_take, Nat.min_eq_left hj]
      have e := sext_packD (r.allD_lt n) []
      rw [List.append_nil, r.allD_length] at e
      have : (allD code z.ss n).take j = (sext (packD (allD code z.ss n))).take j := by
        rw [← e, List.take_take, Nat.min_eq_left hjl]
        congr 2
        rw [e]
      rw [this, valB_sext_take _ (by omega)]
  have hcd : ∀ j, (j + 1) * 3 / 4 ≤ k → j ≤ z.hs → (sext b).take j = (codeD code).take j := by
    intro j hj hjh
    rw [hsx j hj (by omega), allD, List.take_append_of_le_length (by rw [r.codeD_length]; exact hjh)]
  unfold bexfil
  rw [if_neg hne, nabSextets_eq b (by omega)]
  simp only [Res.ok_bind]
  rw [hcd 2 (by omega) h2]
  obtain ⟨y, l, hf⟩ := r.first
  have hbd := r.bard
  rw [hf] at hbd ⊢
  simp only [List.take_succ_cons, List.take_zero] at hbd ⊢
  rw [if_neg (by omega), hbd]
  simp only [Res.ok_bind]
  by_cases hbh : k < (z.hs + 1) * 3 / 4
  · rw [if_pos (by omega)]
  rw [if_neg (by omega), codeB2ToB64_eq E b (by omega) (by omega), hcd z.hs (by omega) (Nat.le_refl _),
    List.take_of_length_le (by rw [r.codeD_length]; exact Nat.le_refl _), r.enc]
  simp only [Res.ok_bind, sizage_of_mem h]
  rw [if_pos (by omega)]

end Counter
end Cesride
