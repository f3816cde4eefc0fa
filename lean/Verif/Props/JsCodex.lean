import Verif.Model.JsCodex
import Verif.Spec.JsCodex
import Verif.Spec.Indexed
import Verif.Props.JsPlain

/-! # C117: the codes that the enumerations of the JavaScript bindings give -/

namespace Cesride
open Spec Js

theorem toUint32_position {i : Nat} (h : i < 2 ^ 32) : toUint32 (.finite (i : Rat)) = i := by
  have := toUint32_nat h
  rwa [Num.int, Rat.intCast_natCast] at this

/-- The code at a position. -/
theorem codeOf_position (consts : List (String × Str)) (arms : List (String × String)) {i : Nat} (h : i < 2 ^ 32) :
    codeOf consts arms (some (.finite (i : Rat))) = arms[i]?.bind fun a => consts.lookup a.2 := by
  unfold codeOf
  simp only [Option.map_some, Option.getD_some, toUint32_position h]
  cases arms[i]? <;> rfl

theorem codeOf_value (consts : List (String × Str)) (arms : List (String × String)) (v : Num) :
    codeOf consts arms (some v) = arms[toUint32 v]?.bind fun a => consts.lookup a.2 := by
  unfold codeOf
  simp only [Option.map_some, Option.getD_some]
  cases arms[toUint32 v]? <;> rfl

theorem pair_of_code {l : List (String × Str)} (h : (l.map (·.2)).Nodup) {p q : String × Str} (hp : p ∈ l) (hq : q ∈ l) (e : p.2 = q.2) : p = q := by
  induction l with
  | nil => cases hp
  | cons a l ih =>
    rw [List.map_cons, List.nodup_cons] at h
    rcases List.mem_cons.mp hp with rfl | hp' <;> rcases List.mem_cons.mp hq with rfl | hq'
    · rfl
    · exact absurd (List.mem_map.mpr ⟨q, hq', e.symm⟩) h.1
    · exact absurd (List.mem_map.mpr ⟨p, hp', e⟩) h.1
    · exact ih h.2 hp' hq'

/-- What an enumeration gives, from a check of its finitely many members. -/
theorem enumeration (consts : List (String × Str)) (arms : List (String × String)) (names : List (String × Str)) (hl : arms.length < 2 ^ 32) (hlen : arms.length = names.length)
    (hnamed : ∀ p ∈ names, ∃ i ∈ List.range arms.length, arms.findIdx? (·.1 == p.1) = some i ∧ (arms[i]?.bind fun a => consts.lookup a.2) = some p.2)
    (hback : ∀ i ∈ List.range arms.length, ∃ p ∈ names, arms.findIdx? (·.1 == p.1) = some i) (hnd : (names.map (·.2)).Nodup) :
    (∀ name code, (name, code) ∈ names → ∃ i : Nat, i < names.length ∧ member arms name = some (.finite i) ∧ codeOf consts arms (member arms name) = some code) ∧
    (∀ v, toUint32 v < names.length → ∃ name code, (name, code) ∈ names ∧ member arms name = some (.finite (toUint32 v)) ∧ codeOf consts arms (some v) = some code) ∧
    (∀ v, names.length ≤ toUint32 v → codeOf consts arms (some v) = none) ∧
    (∀ v w c, codeOf consts arms (some v) = some c → codeOf consts arms (some w) = some c → toUint32 v = toUint32 w) := by
  have key : ∀ p ∈ names, ∃ i, i < names.length ∧ member arms p.1 = some (.finite (i : Nat)) ∧ ∀ v, toUint32 v = i → codeOf consts arms (some v) = some p.2 := by
    intro p hp
    obtain ⟨i, hi, e, k⟩ := hnamed p hp
    rw [List.mem_range] at hi
    refine ⟨i, by omega, by simp [member, e], fun v hv => ?_⟩
    rw [codeOf_value, hv, k]
  have pos : ∀ v, toUint32 v < names.length → ∃ p ∈ names, member arms p.1 = some (.finite (toUint32 v)) ∧ codeOf consts arms (some v) = some p.2 := by
    intro v hv
    obtain ⟨p, hp, e⟩ := hback (toUint32 v) (List.mem_range.mpr (by omega))
    obtain ⟨i, hi, m, k⟩ := hnamed p hp
    rw [e] at m
    obtain rfl := Option.some.inj m
    exact ⟨p, hp, by simp [member, e], by rw [codeOf_value, k]⟩
  have out : ∀ v, names.length ≤ toUint32 v → codeOf consts arms (some v) = none := by
    intro v hv
    rw [codeOf_value, List.getElem?_eq_none (by omega)]
    rfl
  refine ⟨?_, fun v hv => ?_, out, ?_⟩
  · intro name code h
    obtain ⟨i, hi, m, k⟩ := key _ h
    refine ⟨i, hi, m, ?_⟩
    show codeOf consts arms (member arms name) = _
    rw [show member arms name = _ from m]
    exact k _ (toUint32_position (by omega))
  · obtain ⟨p, hp, m, k⟩ := pos v hv
    exact ⟨p.1, p.2, hp, m, k⟩
  · intro v w c hv hw
    have lv : toUint32 v < names.length := by
      apply Nat.lt_of_not_le
      intro h
      rw [out v h] at hv
      cases hv
    have lw : toUint32 w < names.length := by
      apply Nat.lt_of_not_le
      intro h
      rw [out w h] at hw
      cases hw
    obtain ⟨p, hp, mp, kp⟩ := pos v lv
    obtain ⟨q, hq, mq, kq⟩ := pos w lw
    rw [hv] at kp
    rw [hw] at kq
    have e : p.2 = q.2 := (Option.some.inj kp).symm.trans (Option.some.inj kq)
    have e' : p = q := pair_of_code hnd hp hq e
    subst e'
    rw [mp] at mq
    have := congrArg (fun o => o.map toUint32) mq
    simp only [Option.map_some, toUint32_position (Nat.lt_of_lt_of_le lv (by omega : names.length ≤ 2 ^ 32)),
      toUint32_position (Nat.lt_of_lt_of_le lw (by omega : names.length ≤ 2 ^ 32))] at this
    exact Option.some.inj this

/-- **C117.** The name of a primitive code in JavaScript stands for that code. -/
theorem C117_primitives :
    (∀ name code, (name, code) ∈ primitiveNames → ∃ i : Nat, i < 46 ∧ matterCodex name = some (.finite i) ∧ matterCodexCode (matterCodex name) = some code) ∧
    (∀ v, toUint32 v < 46 → ∃ name code, (name, code) ∈ primitiveNames ∧ matterCodex name = some (.finite (toUint32 v)) ∧ matterCodexCode (some v) = some code) ∧
    (∀ v, 46 ≤ toUint32 v → matterCodexCode (some v) = none) ∧
    (∀ v w c, matterCodexCode (some v) = some c → matterCodexCode (some w) = some c → toUint32 v = toUint32 w) :=
  enumeration matterCodexConsts matterCodexArms primitiveNames (by decide +kernel) (by decide +kernel) (by decide +kernel) (by decide +kernel) (by decide +kernel)

/-- **C117.** The name of an indexed signature code in JavaScript stands for that code. -/
theorem C117_indexed :
    (∀ name code, (name, code) ∈ indexedNames → ∃ i : Nat, i < 15 ∧ indexerCodex name = some (.finite i) ∧ indexerCodexCode (indexerCodex name) = some code) ∧
    (∀ v, toUint32 v < 15 → ∃ name code, (name, code) ∈ indexedNames ∧ indexerCodex name = some (.finite (toUint32 v)) ∧ indexerCodexCode (some v) = some code) ∧
    (∀ v, 15 ≤ toUint32 v → indexerCodexCode (some v) = none) ∧
    (∀ v w c, indexerCodexCode (some v) = some c → indexerCodexCode (some w) = some c → toUint32 v = toUint32 w) :=
  enumeration indexerCodexConsts indexerCodexArms indexedNames (by decide +kernel) (by decide +kernel) (by decide +kernel) (by decide +kernel) (by decide +kernel)

theorem unnamed {arms : List (String × String)} {consts names : List (String × Str)} (h : ∀ a ∈ arms, a.1 ∈ names.map (·.1)) {name : String} (hn : name ∉ names.map (·.1)) :
    codeOf consts arms (member arms name) = codeOf consts arms none := by
  have : arms.findIdx? (·.1 == name) = none := by
    rw [List.findIdx?_eq_none_iff]
    intro a ha
    rw [beq_eq_false_iff_ne]
    intro e
    exact hn (e ▸ h a ha)
  simp [member, this]

/-- **C117, defect.** For a name that the enumeration does not have, as those of the secp256r1 codes, the function does not throw: it gives the code of an Ed25519 seed, or of an Ed25519 signature. -/
theorem C117_unnamed_defect (name : String) :
    (name ∉ primitiveNames.map (·.1) → matterCodexCode (matterCodex name) = some (lit "A")) ∧
    (name ∉ indexedNames.map (·.1) → indexerCodexCode (indexerCodex name) = some (lit "A")) := by
  constructor
  · intro h
    unfold matterCodexCode matterCodex
    rw [unnamed (names := primitiveNames) (by decide +kernel) h]
    decide +kernel
  · intro h
    unfold indexerCodexCode indexerCodex
    rw [unnamed (names := indexedNames) (by decide +kernel) h]
    decide +kernel

/-- **C117, defect.** The primitive codes that JavaScript can name are those of the library without the ones of secp256r1. -/
theorem C117_r1_defect (code : Str) :
    ((∃ v, matterCodexCode v = some code) ↔ IsCode code ∧ code ∉ r1Primitives) ∧
    ((∃ v, indexerCodexCode v = some code) ↔ (code ∈ idxCodes.map (·.code) ∨ code ∈ [lit "0z", lit "1z", lit "4z"]) ∧ code ∉ r1Indexed) := by
  have h0 : ∀ (a : Option Num) consts arms, ∃ v, codeOf consts arms a = codeOf consts arms (some v) := by
    intro a consts arms
    cases a with
    | some v => exact ⟨v, rfl⟩
    | none => exact ⟨.notFinite, by simp [codeOf, toUint32]⟩
  constructor
  · obtain ⟨hn, hp, ho, -⟩ := C117_primitives
    constructor
    · rintro ⟨v, hv⟩
      obtain ⟨w, hw⟩ := h0 v matterCodexConsts matterCodexArms
      have hw : matterCodexCode (some w) = some code := hw.symm.trans hv
      have lw : toUint32 w < 46 := by
        apply Nat.lt_of_not_le
        intro h
        rw [ho w h] at hw
        cases hw
      obtain ⟨name, c, hm, -, k⟩ := hp w lw
      obtain rfl := Option.some.inj (k.symm.trans hw)
      have all : ∀ p ∈ primitiveNames, ((∃ q ∈ fixedCodes, q.1 = p.2) ∨
          ∃ large ∈ [false, true], ∃ lead ∈ [0, 1, 2], ∃ family ∈ [ch 'A', ch 'B'], p.2 = varCode large lead family) ∧ p.2 ∉ r1Primitives := by decide +kernel
      obtain ⟨h1, h2⟩ := all _ hm
      refine ⟨?_, h2⟩
      rcases h1 with ⟨q, hq, e⟩ | ⟨l, -, d, hd, f, hf, e⟩
      · exact .inl ⟨q.2, by rw [show c = q.1 from e.symm]; exact hq⟩
      · refine .inr ⟨l, d, f, ?_, ?_, e⟩
        · simp only [List.mem_cons, List.not_mem_nil, or_false] at hd; omega
        · simpa using hf
    · rintro ⟨hc, hr⟩
      suffices code ∈ primitiveNames.map (·.2) by
        obtain ⟨p, hp', e⟩ := List.mem_map.mp this
        obtain ⟨i, -, -, k⟩ := hn p.1 p.2 hp'
        exact ⟨_, by rw [← e]; exact k⟩
      rcases hc with ⟨n, hn'⟩ | ⟨l, d, f, hd, hf, e⟩
      · have all : ∀ p ∈ fixedCodes, p.1 ∉ r1Primitives → p.1 ∈ primitiveNames.map (·.2) := by decide +kernel
        exact all _ hn' hr
      · have all : ∀ l ∈ [false, true], ∀ d ∈ [0, 1, 2], ∀ f ∈ [ch 'A', ch 'B'], varCode l d f ∈ primitiveNames.map (·.2) := by decide +kernel
        rw [e]
        refine all l (by cases l <;> simp) d ?_ f (by simpa using hf)
        have : d = 0 ∨ d = 1 ∨ d = 2 := by omega
        simpa using this
  · obtain ⟨hn, hp, ho, -⟩ := C117_indexed
    constructor
    · rintro ⟨v, hv⟩
      obtain ⟨w, hw⟩ := h0 v indexerCodexConsts indexerCodexArms
      have hw : indexerCodexCode (some w) = some code := hw.symm.trans hv
      have lw : toUint32 w < 15 := by
        apply Nat.lt_of_not_le
        intro h
        rw [ho w h] at hw
        cases hw
      obtain ⟨name, c, hm, -, k⟩ := hp w lw
      obtain rfl := Option.some.inj (k.symm.trans hw)
      have all : ∀ p ∈ indexedNames, (p.2 ∈ idxCodes.map (·.code) ∨ p.2 ∈ [lit "0z", lit "1z", lit "4z"]) ∧ p.2 ∉ r1Indexed := by decide +kernel
      exact all _ hm
    · rintro ⟨hc, hr⟩
      have all : ∀ c ∈ idxCodes.map (·.code) ++ [lit "0z", lit "1z", lit "4z"], c ∉ r1Indexed → c ∈ indexedNames.map (·.2) := by decide +kernel
      have := all code (List.mem_append.mpr hc) hr
      obtain ⟨p, hp', e⟩ := List.mem_map.mp this
      obtain ⟨i, -, -, k⟩ := hn p.1 p.2 hp'
      exact ⟨_, by rw [← e]; exact k⟩

/-- The hypotheses are met: a named code, a number that is no position, and a name that is missing. -/
theorem C117_example : matterCodexCode (matterCodex "Blake3_256") = some (lit "E") ∧ matterCodexCode (some (.finite 46)) = none ∧
    matterCodexCode (matterCodex "ECDSA_256r1_Seed") = some (lit "A") ∧ indexerCodexCode (indexerCodex "ECDSA_256r1") = some (lit "A") := by decide +kernel

end Cesride
