import Verif.Props.Start2
import Verif.Lemmas.KernelRfl

/-! # Property C113, continued: text and binary agree; examples -/

namespace Cesride
open Spec

theorem shows_decoding {s : Str} {b : List UInt8} (h : IsDecoding s b) (t : Str) : Shows b t ↔ t <+: s := by
  constructor
  · rintro ⟨h1, h2⟩
    rw [← h.2] at h2
    have hl := h2.length_le
    rw [textBits_length', textBits_length'] at hl
    have e : t = s.take t.length := by
      refine textBits_inj h1 (fun c hc => h.1 c (List.mem_of_mem_take hc)) ?_
      have hp : textBits (s.take t.length) <+: textBits s := ⟨textBits (s.drop t.length), by rw [← textBits_append, List.take_append_drop]⟩
      refine (List.prefix_iff_eq_take.mp h2).trans ((List.prefix_iff_eq_take.mp hp).trans ?_).symm
      rw [textBits_length', textBits_length', List.length_take]
      congr 1
      omega
    rw [e]
    exact List.take_prefix _ _
  · rintro ⟨u, rfl⟩
    refine ⟨fun c hc => h.1 c (by simp [hc]), ?_⟩
    rw [← h.2, textBits_append]
    exact List.prefix_append _ _

theorem midChar_b64 {s : Str} (h : IsB64Text s) (k : Nat) : ¬ MidChar s k := by
  rintro ⟨b, hb, h1, _⟩
  have := isB64_lt128 b ((mem_alphabet b).mp (h b (List.mem_of_getElem? hb)))
  have : b.toNat < 128 := by simpa using UInt8.lt_iff_toNat_lt.mp this
  omega

/-- C113. A text and the byte string it stands for start alike for the readers of primitives and indexed signatures, and for counters except for the op codes. -/
theorem C113_agree (E : Env) {s : Str} {b : List UInt8} (h : IsDecoding s b) :
    (Matter.ofText E s = .err .unexpectedCode ↔ Matter.ofBinary E b = .err .unexpectedCode) ∧
    (Matter.ofText E s = .err .unknownHardage ↔ Matter.ofBinary E b = .err .unknownBardage) ∧
    (Matter.ofText E s = .err .unknownSizage ↔ Matter.ofBinary E b = .err .unknownSizage) ∧
    (Indexer.ofText E s = .err .unexpectedCode ↔ Indexer.ofBinary E b = .err .unexpectedCode) ∧
    (Indexer.ofText E s = .err .unknownHardage ↔ Indexer.ofBinary E b = .err .unknownBardage) ∧
    (Indexer.ofText E s = .err .unknownSizage ↔ Indexer.ofBinary E b = .err .unknownSizage) ∧
    (Counter.ofText E s = .err .unknownHardage ↔ Counter.ofBinary E b = .err .unknownBardage ∨ Counter.ofBinary E b = .err .unexpectedOpCode) ∧
    (Counter.ofText E s = .err .unknownSizage ↔ Counter.ofBinary E b = .err .unknownSizage) := by
  have hm := midChar_b64 h.1
  obtain ⟨_, a1, a2, a3, _⟩ := C113_matter_text E s
  obtain ⟨_, b1, b2, b3, _⟩ := C113_matter_binary E b
  obtain ⟨_, c1, c2, c3, _⟩ := C113_indexer_text E s
  obtain ⟨_, d1, d2, d3, _⟩ := C113_indexer_binary E b
  obtain ⟨_, e2, e3, _⟩ := C113_counter_text E s
  obtain ⟨_, _, f1, f2, f3, _⟩ := C113_counter_binary E b
  rw [a1, a2, a3, b1, b2, b3, c1, c2, c3, d1, d2, d3, e2, e3, f1, f2, f3]
  simp only [shows_decoding h, hm, not_false_eq_true, true_and, and_true]
  constructor
  · rintro ⟨t, hp, hl, hn⟩
    match t, hl with
    | [c, d], _ =>
      by_cases hc : c = ch '_'
      · subst hc
        refine .inr ⟨(List.prefix_append [ch '_'] [d]).trans hp, ?_⟩
        have := hp.length_le
        have e : (textBits s).length = (bytesBits b).length := by rw [h.2]
        rw [textBits_length', bytesBits_length'] at e
        simp at this
        omega
      · exact .inl ⟨c, d, hp, hc, hn⟩
  · rintro (⟨c, d, hp, _, hn⟩ | ⟨hp, hl⟩)
    · exact ⟨_, hp, rfl, hn⟩
    · have e : (textBits s).length = (bytesBits b).length := by rw [h.2]
      rw [textBits_length', bytesBits_length'] at e
      have l2 : (s.take 2).length = 2 := by rw [List.length_take]; omega
      refine ⟨s.take 2, List.take_prefix _ _, l2, fun n hn => ?_⟩
      obtain ⟨u, rfl⟩ := hp
      have all : ∀ x ∈ counterHeads, x.1.head? = some (ch '-') := by decide +kernel
      have := all _ hn
      simp [lit] at this
      revert this
      decide

/-- Op codes: the reader of counters recognizes them in binary only. -/
theorem C113_op_codes (E : Env) (t : Str) (r : List UInt8) (c : UInt8) (hc : 252 ≤ c.toNat) (x : UInt8) :
    Counter.ofText E (lit "_" ++ x :: t) ≠ .err .unexpectedOpCode ∧ (∃ e, Counter.ofText E (lit "_" ++ x :: t) = .err e ∨ Counter.ofText E (lit "_" ++ x :: t) = .panic) ∧
    Counter.ofBinary E (c :: x :: r) = .err .unexpectedOpCode := by
  refine ⟨fun h => ?_, ?_, ?_⟩
  · have := (C113_counter_text E _).2.2.2 _ h
    simp at this
  · cases h : Counter.ofText E (lit "_" ++ x :: t) with
    | ok a =>
      have := counter_first h
      exact absurd this (by simp [lit]; decide)
    | err e => exact ⟨e, .inl rfl⟩
    | panic => exact ⟨.value, .inr rfl⟩
  · refine (C113_counter_binary E _).2.2.1.mpr ⟨⟨(by decide +kernel : ∀ c ∈ lit "_", c ∈ alphabet), ?_⟩, by simp⟩
    have e : textBits (lit "_") = [1, 1, 1, 1, 1, 1] := by decide +kernel
    rw [e]
    simp only [bytesBits, List.flatMap_cons, byteBits, List.cons_append, List.cons_prefix_cons]
    have := c.toNat_lt
    refine ⟨?_, ?_, ?_, ?_, ?_, ?_, List.nil_prefix⟩ <;> omega

example : Matter.ofText Env.debug (lit "-AAB") = .err .unexpectedCode := (C113_matter_text Env.debug _).2.1.mpr (.inl ⟨lit "AAB", rfl⟩)
example : Indexer.ofText Env.debug (lit "5AAA") = .err .unknownHardage := (C113_indexer_text Env.debug _).2.2.1.mpr ⟨ch '5', ⟨lit "AAA", rfl⟩, by decide +kernel, by decide +kernel⟩
example : Matter.ofText Env.debug (lit "1AAZ") = .err .unknownSizage := by kernel_rfl
example : Counter.ofText Env.debug (lit "-ZAB") = .err .unknownHardage := by kernel_rfl
example : Counter.ofText Env.debug (lit "--AABAAA") = .err .unknownSizage := by kernel_rfl
example : Counter.ofBinary Env.debug [0xff] = .err .tooSmall := by kernel_rfl
example : IsDecoding (lit "-AAB") [0xf8, 0, 1] := ⟨(by decide +kernel : ∀ c ∈ lit "-AAB", c ∈ alphabet), by decide +kernel⟩

end Cesride
