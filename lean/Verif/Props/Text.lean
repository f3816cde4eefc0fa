import Verif.Lemmas.Text
import Verif.Props.JsonRead
import Verif.Props.Panics
import Verif.Model.Tholder
import Verif.Model.Indexer
import Verif.Model.Counter

/-! # Property C88: text given as bytes -/

namespace Cesride
open Spec

theorem fromUtf8_text (s : String) : fromUtf8 (textBytes s) = .ok (textBytes s) := by
  unfold fromUtf8
  rw [if_pos ((utf8Valid_iff _).mpr ⟨s, rfl⟩)]

theorem fromUtf8_not {b : List UInt8} (h : ¬ ∃ s : String, b = textBytes s) : fromUtf8 b = .err .utf8 := by
  unfold fromUtf8
  rw [if_neg (fun hv => h ((utf8Valid_iff _).mp hv))]

/-- C88. Bytes that are the UTF-8 of a Unicode text are read like the text. -/
theorem C88_text (E : Env) (s : String) :
    Matter.new E none none (some (textBytes s)) none none = Matter.new E none none none (some (textBytes s)) none ∧
    (∀ i o, Indexer.new E i o none none (some (textBytes s)) none none = Indexer.new E i o none none none (some (textBytes s)) none) ∧
    (∀ n t, Counter.new E n t none (some (textBytes s)) none none = Counter.new E n t none none (some (textBytes s)) none) := by
  refine ⟨?_, fun i o => ?_, fun n t => ?_⟩
  · show (do let q ← fromUtf8 (textBytes s); Matter.exfil q) = Matter.exfil (textBytes s)
    rw [fromUtf8_text]; rfl
  · show (do let q ← fromUtf8 (textBytes s); Indexer.exfil q) = Indexer.exfil (textBytes s)
    rw [fromUtf8_text]; rfl
  · show (do let q ← fromUtf8 (textBytes s); Counter.exfil q) = Counter.exfil (textBytes s)
    rw [fromUtf8_text]; rfl

/-- C88. All other bytes are refused, whatever they start with: as a primitive, an indexed signature, a counter, a message or a threshold. -/
theorem C88_other (E : Env) (F : Str → Option Str) (H : Hash) {b : List UInt8} (h : ¬ ∃ s : String, b = textBytes s) :
    (∃ e, Matter.new E none none (some b) none none = .err e) ∧
    (∀ i o, ∃ e, Indexer.new E i o none none (some b) none none = .err e) ∧
    (∀ n t, ∃ e, Counter.new E n t none (some b) none none = .err e) ∧
    (∀ code kind ked sad, ∃ e, Serder.new E F H code (some b) kind ked sad = .err e) ∧
    (∀ code kind ked sad, ∃ e, Creder.new E F H code (some b) kind ked sad = .err e) ∧
    (∃ e, Tholder.new E F none (some b) none = .err e) := by
  have hn := fromUtf8_not h
  have hs : ∃ e, Common.sniff b = .err e := by
    unfold Common.sniff
    split
    · exact ⟨_, rfl⟩
    · rw [hn]; exact ⟨_, rfl⟩
  obtain ⟨e, hs⟩ := hs
  refine ⟨⟨.utf8, ?_⟩, fun i o => ⟨.utf8, ?_⟩, fun n t => ⟨.utf8, ?_⟩, fun code kind ked sad => ⟨e, ?_⟩, fun code kind ked sad => ⟨e, ?_⟩, ⟨.utf8, ?_⟩⟩
  · show (do let q ← fromUtf8 b; Matter.exfil q) = _
    rw [hn]; rfl
  · show (do let q ← fromUtf8 b; Indexer.exfil q) = _
    rw [hn]; rfl
  · show (do let q ← fromUtf8 b; Counter.exfil q) = _
    rw [hn]; rfl
  · unfold Serder.new Sadder.new Sadder.populateFromRaw Sadder.inhale
    dsimp only
    rw [hs]; rfl
  · unfold Creder.new Sadder.new Sadder.populateFromRaw Sadder.inhale
    dsimp only
    rw [hs]; rfl
  · have hne : b ≠ [] := by rintro rfl; exact h ⟨"", rfl⟩
    show (do
      let t ← (if b = [] then Res.ok Tholder.default else Tholder.processLimen E b)
      if t.number.isNone ∧ t.bexter.isNone then Res.err .emptyMaterial else Res.ok t) = _
    rw [if_neg hne]
    unfold Tholder.processLimen
    rw [hn]; rfl

/-- C88. Where the library cuts a text (every offset in C12, C22, C26): between two characters it gets the characters in between, inside a
character it panics. -/
theorem C88_cut (s : String) (a b : Nat) : (∀ r, sliceStr (textBytes s) a b = .ok r ↔
      ∃ x y z : String, s = x ++ y ++ z ∧ (textBytes x).length = a ∧ (textBytes (x ++ y)).length = b ∧ r = textBytes y) ∧
    (sliceStr (textBytes s) a b = .panic ↔
      ¬ ∃ x y z : String, s = x ++ y ++ z ∧ (textBytes x).length = a ∧ (textBytes (x ++ y)).length = b) := cut_iff s a b

/-- C88. An offset lies inside a character, in the sense used by C12, C22 and C26, exactly when the text has no two parts that meet there. -/
theorem C88_inside (s : String) {k : Nat} (h0 : 0 < k) (hk : k ≤ (textBytes s).length) :
    MidChar (textBytes s) k ↔ ¬ ∃ x y : String, s = x ++ y ∧ (textBytes x).length = k := by
  rw [← boundary_iff, ← midChar_iff hk h0, Bool.not_eq_true]

/-- Texts and bytes that are none: a lone surrogate, an overlong form, a cut character, a value beyond the last character. -/
example : textBytes "Aé€😀" = [0x41, 0xC3, 0xA9, 0xE2, 0x82, 0xAC, 0xF0, 0x9F, 0x98, 0x80] := by decide +kernel
example : ∀ b ∈ [[0xED, 0xA0, 0x80], [0xC0, 0xAF], [0xE2, 0x82], [0xF4, 0x90, 0x80, 0x80], [0x80], [0xFF]], ¬ ∃ s : String, b = textBytes s := by
  have key : ∀ b ∈ [[0xED, 0xA0, 0x80], [0xC0, 0xAF], [0xE2, 0x82], [0xF4, 0x90, 0x80, 0x80], [0x80], [0xFF]], utf8Valid b = false := by decide +kernel
  intro b hb h
  have := key b hb
  rw [(utf8Valid_iff b).mpr h] at this
  cases this
/-- A counter with bytes after it that are no text is refused from bytes. -/
example : ∃ e, Counter.new Env.debug none none none (some (lit "-AAB" ++ [0xFF])) none none = .err e :=
  (C88_other Env.debug some zeroHash (b := lit "-AAB" ++ [0xFF]) (by
    rintro h
    have := (utf8Valid_iff _).mpr h
    revert this
    decide +kernel)).2.2.1 none none

end Cesride
