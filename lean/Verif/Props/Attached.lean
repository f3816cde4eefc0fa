import Verif.Props.Receipts
import Verif.Props.Content
import Verif.Model.Incept

/-!
# Property C109: messages with attached signatures

`messagize` writes an event and its signatures as one text. The client below is what a user of the library writes to read such a text: it looks at the code of each
counter to learn what follows. Its loops are not library code; everything it calls is.
-/

namespace Cesride
namespace Builder
open Common Spec

/-- A group of attached signatures: of the controller, of witnesses, of another identifier at the event named by a seal, of another identifier at its last event. -/
inductive Group
  | controller (sigs : List Siger)
  | witness (sigs : List Siger)
  | sealed (i s d : Matter) (sigs : List Siger)
  | last (i : Matter) (sigs : List Siger)

/-- Parse a counter and skip it. -/
def readCount (E : Env) (text : Str) : Res (Counter × Str) := do
  let c ← Counter.new E none none none none (some text) none
  let k ← c.fullSize
  let rest ← sliceStr text k text.length
  .ok (c, rest)

/-- Skip a primitive. -/
def skip (m : Matter) (text : Str) : Res Str := do
  let k ← m.fullSize
  sliceStr text k text.length

/-- The controller signatures behind a seal. -/
def readInner (E : Env) (text : Str) : Res (List Siger × Str) := do
  let (c, text) ← readCount E text
  if c.code = lit "-A" then readSigs E c.count text else .err .unexpectedCode

/-- Parse a group. -/
def readGroup (E : Env) (H : Hash) (text : Str) : Res (Group × Str) := do
  let (c, text) ← readCount E text
  if c.code = lit "-A" then do
    let (sigs, text) ← readSigs E c.count text
    .ok (.controller sigs, text)
  else if c.code = lit "-B" then do
    let (sigs, text) ← readSigs E c.count text
    .ok (.witness sigs, text)
  else if c.count ≠ 1 then .err .value
  else if c.code = lit "-H" then do
    let i ← Prefixer.newWithQb64 E H text
    let text ← skip i text
    let (sigs, text) ← readInner E text
    .ok (.last i sigs, text)
  else if c.code = lit "-F" then do
    let i ← Prefixer.newWithQb64 E H text
    let text ← skip i text
    let s ← Seqner.newWithQb64 E text
    let text ← skip s text
    let d ← Saider.newWithQb64 E H text
    let text ← skip d text
    let (sigs, text) ← readInner E text
    .ok (.sealed i s d sigs, text)
  else .err .unexpectedCode

/-- Parse groups, at most `n`, as long as a counter is at the front. -/
def readGroups (E : Env) (H : Hash) : Nat → Str → Res (List Group × Str)
  | 0, text => .ok ([], text)
  | n + 1, text =>
    if text.head? = some (ch '-') then do
      let (g, text) ← readGroup E H text
      let (gs, text) ← readGroups E H n text
      .ok (g :: gs, text)
    else .ok ([], text)

/-- A message: the event, the groups attached to it, and the text after them. -/
structure Message where
  event : Sadder
  groups : List Group
  left : Str

/-- Read a message from the front of a byte stream. -/
def readMessage (E : Env) (F : Str → Option Str) (H : Hash) (stream : List UInt8) : Res Message := do
  let event ← Serder.newWithRaw E F H stream
  let attached ← slice stream event.raw.length stream.length
  let text ← fromUtf8 attached
  let (groups, left) ← readGroups E H text.length text
  .ok { event := event, groups := groups, left := left }

/-! ## What a message should contain -/

/-- A signature as it is read: the text does not contain the key. -/
def bare (x : Siger) : Siger := { indexer := x.indexer, verfer := Verfer.default }

/-- The group of the signatures of the controller, with or without a seal. -/
inductive ControllerGroup (E : Env) : Option (List Siger) → Option Seal → List Group → Prop
  | none {x} : ControllerGroup E none x []
  | plain {sigs} : ControllerGroup E (some sigs) none [.controller (sigs.map bare)]
  | last {sigs x i} : x.last = true → i.qb64 E = .ok x.i → ControllerGroup E (some sigs) (some x) [.last i (sigs.map bare)]
  | sealed {sigs x i s d n} : x.last = false → i.qb64 E = .ok x.i → HexNumeral x.s n → Seqner.sn s = .ok n → d.qb64 E = .ok x.d →
    ControllerGroup E (some sigs) (some x) [.sealed i s d (sigs.map bare)]

/-- The group of the signatures of witnesses. -/
def witnessGroup : Option (List Siger) → List Group
  | none => []
  | some sigs => [.witness (sigs.map bare)]

/-- An indexed signature that was obtained from the library. -/
def Genuine (E : Env) (x : Siger) : Prop := Siger.validateCode x.indexer.code = .ok () ∧ ∃ c ∈ Spec.idxCodes, IdxObtained E c x.indexer

/-- A seal whose identifier and digest are texts of primitives. -/
def Readable (E : Env) (x : Seal) : Prop :=
  (∃ i, Obtained E i ∧ i.qb64 E = .ok x.i) ∧ (x.last = false → ∃ d, Obtained E d ∧ d.code ∈ Typed.digestCodes ∧ d.qb64 E = .ok x.d)

/-! ## Proofs -/

theorem counter_facts (E : Env) {code : Str} (hc : code ∈ [lit "-A", lit "-B", lit "-F", lit "-H"]) (n : Nat) :
    (4095 < n → counterText E code n = .err .invalidVarIndex) ∧
    (n ≤ 4095 → ∃ t, counterText E code n = .ok t ∧ Ascii t ∧ t.head? = some (ch '-') ∧
      ∀ rest, utf8Valid rest = true → readCount E (t ++ rest) = .ok (⟨code, n⟩, rest)) := by
  have hm : (code, 2) ∈ Spec.counterCodes := by
    simp only [List.mem_cons, List.not_mem_nil, or_false] at hc
    rcases hc with rfl | rfl | rfl | rfl <;> decide +kernel
  have hl := C24_limits E hm n
  have e : counterText E code n = (do let c ← Counter.ofCode E code n; c.qb64 E) := rfl
  have h64 : 64 ^ 2 - 1 = 4095 := by decide
  rw [h64] at hl
  refine ⟨fun h => ?_, fun h => ?_⟩
  · rw [e, hl, if_neg (by omega)]; rfl
  · rw [if_pos h] at hl
    have ho : CounterObtained E ⟨code, n⟩ := .built hl
    obtain ⟨t, h1, h2, _, _, h5, h6, _⟩ := Item.Obtainable.facts (i := .count ⟨code, n⟩) (E := E) ho
    have h1 : Counter.qb64 E ⟨code, n⟩ = .ok t := h1
    have h2 : Counter.fullSize ⟨code, n⟩ = .ok t.length := h2
    obtain ⟨t', b, k1, _, _, _, _, _, _, _, ds, k6, _⟩ := C23_roundtrip E ho
    obtain rfl := Res.ok.inj (h1.symm.trans k1)
    refine ⟨t, by rw [e, hl]; exact h1, isB64Text_ascii h5, ?_, fun rest hr => ?_⟩
    · rw [k6]
      simp only [List.mem_cons, List.not_mem_nil, or_false] at hc
      rcases hc with rfl | rfl | rfl | rfl <;> rfl
    · have hq : (do let x ← Counter.ofText E (t ++ rest); Res.ok (Item.count x)) = .ok (Item.count ⟨code, n⟩) := h6 rest hr
      obtain ⟨c, hc', e'⟩ := Res.bind_eq_ok.mp hq
      have e' : c = ⟨code, n⟩ := by simpa using e'
      subst e'
      have hc' : Counter.new E none none none none (some (t ++ rest)) none = .ok ⟨code, n⟩ := hc'
      have hsl : sliceStr (t ++ rest) t.length (t ++ rest).length = .ok rest := by
        unfold sliceStr
        rw [if_pos ⟨by simp, Nat.le_refl _, isBoundary_prefix (isB64Text_ascii h5) hr (Nat.le_refl _), by simp [isBoundary]⟩]
        rw [List.take_length, List.drop_left]
      unfold readCount
      rw [hc', Res.ok_bind, h2, Res.ok_bind, hsl, Res.ok_bind]

theorem sigerTexts_of {E : Env} : ∀ {sigs : List Siger}, (∀ x ∈ sigs, Genuine E x) →
    ∃ sts, sigerTexts E sigs = .ok sts.flatten ∧ Aligned (fun x t => x.indexer.qb64 E = .ok t) sigs sts
  | [], _ => ⟨[], rfl, .nil⟩
  | x :: sigs, h => by
    obtain ⟨sts, h1, h2⟩ := sigerTexts_of (sigs := sigs) (fun y hy => h y (by simp [hy]))
    obtain ⟨_, c, hc, hx⟩ := h x (by simp)
    obtain ⟨t, ht, _⟩ := Item.Obtainable.facts (i := .sig x.indexer) (E := E) ⟨c, hc, hx⟩
    have ht : x.indexer.qb64 E = .ok t := ht
    exact ⟨t :: sts, by simp [sigerTexts, ht, h1], .cons ht h2⟩

theorem sigs_read {E : Env} {sigs : List Siger} (h : ∀ x ∈ sigs, Genuine E x) : ∃ ts, sigerTexts E sigs = .ok ts ∧ Ascii ts ∧
    ∀ left, utf8Valid left = true → readSigs E sigs.length (ts ++ left) = .ok (sigs.map bare, left) := by
  obtain ⟨sts, h1, h2⟩ := sigerTexts_of h
  refine ⟨_, h1, (readSigs_of (left := []) h h2 rfl).2, fun left hl => (readSigs_of h h2 hl).1⟩

theorem utf8_front {t s : Str} (ht : Ascii t) (hs : utf8Valid s = true) : utf8Valid (t ++ s) = true := by
  rw [utf8Valid_ascii_append ht]; exact hs

/-- A counted group of signatures. -/
theorem counted_read {E : Env} {code : Str} (hc : code ∈ [lit "-A", lit "-B", lit "-F", lit "-H"]) {sigs : List Siger} (h : ∀ x ∈ sigs, Genuine E x) (hn : sigs.length < 2 ^ 32) :
    (4095 < sigs.length → counterText E code (sigs.length % 2 ^ 32) = .err .invalidVarIndex) ∧
    (sigs.length ≤ 4095 → ∃ c ts, counterText E code (sigs.length % 2 ^ 32) = .ok c ∧ sigerTexts E sigs = .ok ts ∧ Ascii (c ++ ts) ∧ (c ++ ts).head? = some (ch '-') ∧
      ∀ left, utf8Valid left = true → readCount E (c ++ (ts ++ left)) = .ok (⟨code, sigs.length⟩, ts ++ left) ∧
        readSigs E sigs.length (ts ++ left) = .ok (sigs.map bare, left)) := by
  rw [Nat.mod_eq_of_lt hn]
  obtain ⟨h1, h2⟩ := counter_facts E hc sigs.length
  refine ⟨h1, fun hl => ?_⟩
  obtain ⟨c, c1, c2, c3, c4⟩ := h2 hl
  obtain ⟨ts, t1, t2, t3⟩ := sigs_read h
  refine ⟨c, ts, c1, t1, ?_, ?_, fun left hleft => ⟨c4 _ (utf8_front t2 hleft), t3 _ hleft⟩⟩
  · intro x hx
    rcases List.mem_append.mp hx with hx | hx
    · exact c2 x hx
    · exact t2 x hx
  · cases c with
    | nil => cases c3
    | cons a l => exact c3

theorem prefixer_read {E : Env} (H : Hash) {t : Str} {m : Matter} (h : Matter.ofText E t = .ok m) : Prefixer.newWithQb64 E H t = .ok m := by
  have := (C67_typed E H toy none none (some t) none (.text t) rfl).2.2.2.2.2.2.2.2.2.2.1 none none
  show Prefixer.new E H none none none none none (some t) none = _
  rw [this, if_pos (by decide +kernel)]
  exact h

theorem seqner_read {E : Env} {t : Str} {m : Matter} (h : Matter.ofText E t = .ok m) (hc : m.code = lit "0A") : Seqner.newWithQb64 E t = .ok m := by
  show Seqner.ofText E t = _
  rw [Seqner.parse_text]
  have h : Matter.newWithQb64 t = .ok m := h
  rw [h, Res.ok_bind, if_pos hc]

theorem saider_read {E : Env} (H : Hash) {t : Str} {m : Matter} (h : Matter.ofText E t = .ok m) (hc : m.code ∈ Typed.digestCodes) : Saider.newWithQb64 E H t = .ok m := by
  have := (C67_typed E H toy none none (some t) none (.text t) rfl).2.2.2.2.2.2.1 none none none
  show Saider.new E H none none none none none none none (some t) none = _
  have h : Matter.read E (.text t) = .ok m := h
  rw [this, h, Res.ok_bind, withCode, if_pos hc]

theorem skip_read {E : Env} {m : Matter} (h : Obtained E m) {t : Str} (ht : m.qb64 E = .ok t) {rest : Str} (hr : utf8Valid rest = true) :
    Matter.ofText E (t ++ rest) = .ok m ∧ skip m (t ++ rest) = .ok rest := by
  obtain ⟨_, h2, h3⟩ := front_read h ht
  obtain ⟨h4, h5⟩ := h3 rest hr
  exact ⟨h4, by unfold skip; rw [h2, Res.ok_bind, h5]⟩

theorem ascii_append {a b : Str} (ha : Ascii a) (hb : Ascii b) : Ascii (a ++ b) := by
  intro x hx
  rcases List.mem_append.mp hx with hx | hx
  · exact ha x hx
  · exact hb x hx

theorem head_append {a b : Str} {c : UInt8} (ha : a.head? = some c) : (a ++ b).head? = some c := by
  cases a with
  | nil => cases ha
  | cons _ _ => exact ha

/-- The number of a seal. -/
theorem number_facts (E : Env) (x : Seal) :
    ((¬ ∃ n, HexNumeral x.s n ∧ n < 2 ^ 128) → x.number E = .err .parseInt) ∧
    ∀ n, HexNumeral x.s n → n < 2 ^ 128 → ∃ m t, x.number E = .ok t ∧ Obtained E m ∧ m.code = lit "0A" ∧ m.qb64 E = .ok t ∧ Seqner.sn m = .ok n := by
  obtain ⟨_, h2, h3⟩ := C78_numbers E
  have e : x.number E = (do let m ← Seqner.newWithSnh E x.s; m.qb64 E) := rfl
  refine ⟨fun h => by rw [e, (h3 _ h).2]; rfl, fun n hn hlt => ?_⟩
  obtain ⟨m, _, t, b, m1, m2, _, _, m5, _, _, m8, _, _, _, _, _, m12⟩ := C29_seqner_roundtrip E hlt
  refine ⟨m, t, ?_, ?_, m5, m8, m2⟩
  · rw [e, (h2 _ n hn hlt).2]
    have m1 : Seqner.newWithSn E n = .ok m := m1
    rw [m1]
    exact m8
  · rw [Seqner.parse_binary] at m12
    obtain ⟨m', h4, h5⟩ := Res.bind_eq_ok.mp m12
    split at h5
    · obtain rfl := Res.ok.inj h5
      exact Obtained.binary h4
    · cases h5

/-- What can be written: at most 4095 signatures, and a number in the seal. -/
def Sendable (sigers : Option (List Siger)) (sealed : Option Seal) (wigers : Option (List Siger)) : Prop :=
  (∀ sigs, sigers = some sigs → sigs.length ≤ 4095 ∧ ∀ x, sealed = some x → x.last = false → ∃ n, HexNumeral x.s n ∧ n < 2 ^ 128) ∧
    ∀ sigs, wigers = some sigs → sigs.length ≤ 4095

theorem inner_read {E : Env} {sigs : List Siger} (h : ∀ x ∈ sigs, Genuine E x) (hn : sigs.length < 2 ^ 32) (hl : sigs.length ≤ 4095) :
    ∃ c ts, counterText E (lit "-A") (sigs.length % 2 ^ 32) = .ok c ∧ sigerTexts E sigs = .ok ts ∧ Ascii (c ++ ts) ∧ (c ++ ts).head? = some (ch '-') ∧
      ∀ left, utf8Valid left = true → readInner E (c ++ ts ++ left) = .ok (sigs.map bare, left) ∧ readCount E (c ++ ts ++ left) = .ok (⟨lit "-A", sigs.length⟩, ts ++ left) ∧
        readSigs E sigs.length (ts ++ left) = .ok (sigs.map bare, left) := by
  obtain ⟨c, ts, h1, h2, h3, h4, h5⟩ := (counted_read (E := E) (code := lit "-A") (by decide) h hn).2 hl
  refine ⟨c, ts, h1, h2, h3, h4, fun left hleft => ?_⟩
  obtain ⟨h6, h7⟩ := h5 left hleft
  rw [List.append_assoc]
  refine ⟨?_, h6, h7⟩
  unfold readInner
  rw [h6, Res.ok_bind]
  dsimp only
  rw [if_pos rfl, h7]

/-- The part of the controller. -/
theorem controller_part {E : Env} (H : Hash) {sigs : List Siger} {sealed : Option Seal} (h : ∀ x ∈ sigs, Genuine E x) (hn : sigs.length < 2 ^ 32) (hseal : ∀ x, sealed = some x → Readable E x) :
    (¬ Sendable (some sigs) sealed none → ∃ e, controllerText E sealed (some sigs) = .err e) ∧
    (Sendable (some sigs) sealed none → ∃ text g, controllerText E sealed (some sigs) = .ok text ∧ Ascii text ∧ text.head? = some (ch '-') ∧ ControllerGroup E (some sigs) sealed [g] ∧
      ∀ left, utf8Valid left = true → readGroup E H (text ++ left) = .ok (g, left)) := by
  obtain ⟨fc, fc1, fc2, fc3, fc4⟩ := (counter_facts E (code := lit "-F") (by decide) 1).2 (by omega)
  obtain ⟨hc, hc1, hc2, hc3, hc4⟩ := (counter_facts E (code := lit "-H") (by decide) 1).2 (by omega)
  have big : 4095 < sigs.length → counterText E (lit "-A") (sigs.length % 2 ^ 32) = .err .invalidVarIndex := (counted_read (E := E) (code := lit "-A") (by decide) h hn).1
  cases sealed with
  | none =>
    have hs : Sendable (some sigs) none none ↔ sigs.length ≤ 4095 :=
      ⟨fun h => (h.1 _ rfl).1, fun h => ⟨fun _ e => by cases e; exact ⟨h, by simp⟩, by simp⟩⟩
    rw [hs]
    refine ⟨fun hb => ⟨_, by simp only [controllerText, sealText]; rw [big (by omega)]; rfl⟩, fun hl => ?_⟩
    obtain ⟨c, ts, h1, h2, h3, h4, h5⟩ := inner_read h hn hl
    refine ⟨c ++ ts, _, by simp only [controllerText, sealText]; rw [h1, h2]; rfl, h3, h4, .plain, fun left hleft => ?_⟩
    obtain ⟨_, h6, h7⟩ := h5 left hleft
    unfold readGroup
    rw [h6, Res.ok_bind]
    dsimp only
    rw [if_pos rfl, h7, Res.ok_bind]
  | some x =>
    obtain ⟨⟨i, i1, i2⟩, hd⟩ := hseal x rfl
    cases hlast : x.last with
    | true =>
      have hs : Sendable (some sigs) (some x) none ↔ sigs.length ≤ 4095 :=
        ⟨fun h => (h.1 _ rfl).1, fun h => ⟨fun _ e => by cases e; exact ⟨h, fun y hy => by cases hy; simp [hlast]⟩, by simp⟩⟩
      rw [hs]
      refine ⟨fun hb => ⟨_, by simp only [controllerText, sealText, hlast, if_true]; rw [hc1, Res.ok_bind, Res.ok_bind, big (by omega)]; rfl⟩, fun hl => ?_⟩
      obtain ⟨c, ts, h1, h2, h3, h4, h5⟩ := inner_read h hn hl
      obtain ⟨ai, _⟩ := front_read i1 i2
      refine ⟨hc ++ (x.i ++ (c ++ ts)), _, by simp only [controllerText, sealText, hlast, if_true]; rw [hc1, Res.ok_bind, Res.ok_bind, h1, Res.ok_bind, h2]; simp [List.append_assoc],
        ascii_append hc2 (ascii_append ai h3), head_append hc3, .last hlast i2, fun left hleft => ?_⟩
      obtain ⟨h6, _⟩ := h5 left hleft
      have u1 := utf8_front h3 hleft
      have u2 := utf8_front ai u1
      obtain ⟨r1, r2⟩ := skip_read i1 i2 u1
      simp only [List.append_assoc] at *
      unfold readGroup
      rw [hc4 _ u2, Res.ok_bind]
      dsimp only
      rw [if_neg (by decide), if_neg (by decide), if_neg (by decide), if_pos rfl, prefixer_read H r1, Res.ok_bind, r2, Res.ok_bind, h6, Res.ok_bind]
    | false =>
      obtain ⟨d, d1, d2, d3⟩ := hd hlast
      obtain ⟨bad, good⟩ := number_facts E x
      have hs : Sendable (some sigs) (some x) none ↔ sigs.length ≤ 4095 ∧ ∃ n, HexNumeral x.s n ∧ n < 2 ^ 128 :=
        ⟨fun h => ⟨(h.1 _ rfl).1, (h.1 _ rfl).2 x rfl hlast⟩, fun h => ⟨fun _ e => by cases e; exact ⟨h.1, fun y hy _ => by cases hy; exact h.2⟩, by simp⟩⟩
      rw [hs]
      refine ⟨fun hb => ?_, fun ⟨hl, n, hx, hlt⟩ => ?_⟩
      · by_cases hnum : ∃ n, HexNumeral x.s n ∧ n < 2 ^ 128
        · obtain ⟨n, hx, hlt⟩ := hnum
          obtain ⟨m, t, m1, _⟩ := good n hx hlt
          have : ¬ sigs.length ≤ 4095 := fun hl => hb ⟨hl, n, hx, hlt⟩
          exact ⟨_, by simp only [controllerText, sealText, hlast, Bool.false_eq_true, if_false]; rw [fc1, Res.ok_bind, m1, Res.ok_bind, Res.ok_bind, big (by omega)]; rfl⟩
        · exact ⟨_, by simp only [controllerText, sealText, hlast, Bool.false_eq_true, if_false]; rw [fc1, Res.ok_bind, bad hnum]; rfl⟩
      · obtain ⟨m, t, m1, m2, m3, m4, m5⟩ := good n hx hlt
        obtain ⟨c, ts, h1, h2, h3, h4, h5⟩ := inner_read h hn hl
        obtain ⟨ai, _⟩ := front_read i1 i2
        obtain ⟨am, _⟩ := front_read m2 m4
        obtain ⟨ad, _⟩ := front_read d1 d3
        refine ⟨fc ++ (x.i ++ (t ++ (x.d ++ (c ++ ts)))), _, by
            simp only [controllerText, sealText, hlast, Bool.false_eq_true, if_false]; rw [fc1, Res.ok_bind, m1, Res.ok_bind, Res.ok_bind, h1, Res.ok_bind, h2]; simp [List.append_assoc],
          ascii_append fc2 (ascii_append ai (ascii_append am (ascii_append ad h3))), head_append fc3, .sealed hlast i2 hx m5 d3, fun left hleft => ?_⟩
        obtain ⟨h6, _⟩ := h5 left hleft
        have u1 := utf8_front h3 hleft
        have u2 := utf8_front ad u1
        have u3 := utf8_front am u2
        have u4 := utf8_front ai u3
        obtain ⟨r1, r2⟩ := skip_read i1 i2 u3
        obtain ⟨r3, r4⟩ := skip_read m2 m4 u2
        obtain ⟨r5, r6⟩ := skip_read d1 d3 u1
        simp only [List.append_assoc] at *
        unfold readGroup
        rw [fc4 _ u4, Res.ok_bind]
        dsimp only
        rw [if_neg (by decide), if_neg (by decide), if_neg (by decide), if_neg (by decide), if_pos rfl, prefixer_read H r1, Res.ok_bind, r2, Res.ok_bind, seqner_read r3 m3, Res.ok_bind, r4, Res.ok_bind,
          saider_read H r5 d2, Res.ok_bind, r6, Res.ok_bind, h6, Res.ok_bind]

/-- The part of the witnesses. -/
theorem witness_part {E : Env} (H : Hash) {sigs : List Siger} (h : ∀ x ∈ sigs, Genuine E x) (hn : sigs.length < 2 ^ 32) :
    (4095 < sigs.length → ∃ e, witnessText E (some sigs) = .err e) ∧
    (sigs.length ≤ 4095 → ∃ text, witnessText E (some sigs) = .ok text ∧ Ascii text ∧ text.head? = some (ch '-') ∧
      ∀ left, utf8Valid left = true → readGroup E H (text ++ left) = .ok (.witness (sigs.map bare), left)) := by
  obtain ⟨h1, h2⟩ := counted_read (E := E) (code := lit "-B") (by decide) h hn
  refine ⟨fun hb => ⟨_, by simp only [witnessText]; rw [h1 hb]; rfl⟩, fun hl => ?_⟩
  obtain ⟨c, ts, c1, c2, c3, c4, c5⟩ := h2 hl
  refine ⟨c ++ ts, by simp only [witnessText]; rw [c1, c2]; rfl, c3, c4, fun left hleft => ?_⟩
  obtain ⟨h6, h7⟩ := c5 left hleft
  rw [List.append_assoc]
  unfold readGroup
  rw [h6, Res.ok_bind]
  dsimp only
  rw [if_neg (by decide), if_pos rfl, h7, Res.ok_bind]

theorem readGroups_end {E : Env} {H : Hash} {left : Str} (h : left.head? ≠ some (ch '-')) : ∀ n, readGroups E H n left = .ok ([], left)
  | 0 => rfl
  | n + 1 => by rw [readGroups, if_neg h]

/-- The attachments as texts and as groups. -/
theorem attached {E : Env} (H : Hash) {sigers : Option (List Siger)} {sealed : Option Seal} {wigers : Option (List Siger)}
    (hs : ∀ sigs, sigers = some sigs → (∀ x ∈ sigs, Genuine E x) ∧ sigs.length < 2 ^ 32) (hw : ∀ sigs, wigers = some sigs → (∀ x ∈ sigs, Genuine E x) ∧ sigs.length < 2 ^ 32)
    (hseal : ∀ x, sealed = some x → Readable E x) :
    (¬ Sendable sigers sealed wigers → ∃ e, (do let a ← controllerText E sealed sigers; let b ← witnessText E wigers; .ok (a ++ b) : Res Str) = .err e) ∧
    (Sendable sigers sealed wigers → ∃ a b gs, controllerText E sealed sigers = .ok a ∧ witnessText E wigers = .ok b ∧ ControllerGroup E sigers sealed gs ∧ Ascii (a ++ b) ∧
      ∀ left, utf8Valid left = true → left.head? ≠ some (ch '-') → readGroups E H (a ++ (b ++ left)).length (a ++ (b ++ left)) = .ok (gs ++ witnessGroup wigers, left)) := by
  have first : ((¬ Sendable sigers sealed none) → ∃ e, controllerText E sealed sigers = .err e) ∧
      (Sendable sigers sealed none → ∃ a gs, controllerText E sealed sigers = .ok a ∧ Ascii a ∧ ControllerGroup E sigers sealed gs ∧ (a = [] ∧ gs = [] ∨
        a.head? = some (ch '-') ∧ ∃ g, gs = [g] ∧ ∀ left, utf8Valid left = true → readGroup E H (a ++ left) = .ok (g, left))) := by
    cases sigers with
    | none => exact ⟨fun h => absurd ⟨by simp, by simp⟩ h, fun _ => ⟨[], [], rfl, by simp [Ascii], .none, .inl ⟨rfl, rfl⟩⟩⟩
    | some sigs =>
      obtain ⟨h1, h2⟩ := controller_part H (hs sigs rfl).1 (hs sigs rfl).2 hseal
      refine ⟨h1, fun h => ?_⟩
      obtain ⟨text, g, e1, e2, e3, e4, e5⟩ := h2 h
      exact ⟨text, [g], e1, e2, e4, .inr ⟨e3, g, rfl, e5⟩⟩
  have second : ((¬ Sendable none none wigers) → ∃ e, witnessText E wigers = .err e) ∧
      (Sendable none none wigers → ∃ b, witnessText E wigers = .ok b ∧ Ascii b ∧ (b = [] ∧ wigers = none ∨ b.head? = some (ch '-') ∧
        ∃ g, witnessGroup wigers = [g] ∧ ∀ left, utf8Valid left = true → readGroup E H (b ++ left) = .ok (g, left))) := by
    cases wigers with
    | none => exact ⟨fun h => absurd ⟨by simp, by simp⟩ h, fun _ => ⟨[], rfl, by simp [Ascii], .inl ⟨rfl, rfl⟩⟩⟩
    | some sigs =>
      obtain ⟨h1, h2⟩ := witness_part H (hw sigs rfl).1 (hw sigs rfl).2
      have hiff : Sendable none none (some sigs) ↔ sigs.length ≤ 4095 := ⟨fun h => h.2 _ rfl, fun h => ⟨by simp, fun _ e => by cases e; exact h⟩⟩
      rw [hiff]
      refine ⟨fun h => h1 (by omega), fun h => ?_⟩
      obtain ⟨text, e1, e2, e3, e4⟩ := h2 h
      exact ⟨text, e1, e2, .inr ⟨e3, _, rfl, e4⟩⟩
  have both : Sendable sigers sealed wigers ↔ Sendable sigers sealed none ∧ Sendable none none wigers :=
    ⟨fun h => ⟨⟨h.1, by simp⟩, ⟨by simp, h.2⟩⟩, fun h => ⟨h.1.1, h.2.2⟩⟩
  rw [both]
  refine ⟨fun h => ?_, fun ⟨h1, h2⟩ => ?_⟩
  · by_cases h1 : Sendable sigers sealed none
    · obtain ⟨a, _, ha, _⟩ := first.2 h1
      obtain ⟨e, he⟩ := second.1 (fun h2 => h ⟨h1, h2⟩)
      exact ⟨e, by rw [ha, Res.ok_bind, he]; rfl⟩
    · obtain ⟨e, he⟩ := first.1 h1
      exact ⟨e, by rw [he]; rfl⟩
  · obtain ⟨a, gs, a1, a2, a3, a4⟩ := first.2 h1
    obtain ⟨b, b1, b2, b3⟩ := second.2 h2
    refine ⟨a, b, gs, a1, b1, a3, ascii_append a2 b2, fun left hl hh => ?_⟩
    have tailRead : ∀ k, (b ++ left).length ≤ k → readGroups E H k (b ++ left) = .ok (witnessGroup wigers, left) := by
      intro k hk
      rcases b3 with ⟨rfl, rfl⟩ | ⟨c1, g, c2, c3⟩
      · exact readGroups_end hh k
      · cases k with
        | zero =>
          cases b with
          | nil => cases c1
          | cons _ _ => simp at hk
        | succ k => rw [readGroups, if_pos (head_append c1), c3 left hl, Res.ok_bind]; dsimp only; rw [readGroups_end hh, Res.ok_bind, c2]
    rcases a4 with ⟨rfl, rfl⟩ | ⟨c1, g, rfl, c3⟩
    · exact tailRead _ (Nat.le_refl _)
    · cases a with
      | nil => cases c1
      | cons x a =>
        have hlen : (x :: a ++ (b ++ left)).length = (a ++ (b ++ left)).length + 1 := rfl
        rw [hlen, readGroups, if_pos (head_append c1), c3 _ (utf8_front b2 hl), Res.ok_bind]
        dsimp only
        rw [tailRead _ (by simp only [List.length_append]; omega), Res.ok_bind]
        rfl

/-- C109. Signatures obtained from the library, written with or without a seal, are a message exactly if some are given, no group has more than 4095, and the number of a seal that is not
for the last event is a number. -/
theorem C109_written {E : Env} {s : Sadder} {sigers : Option (List Siger)} {sealed : Option Seal} {wigers : Option (List Siger)} {cigars : Option (List Cigar)} (hu : utf8Valid s.raw = true)
    (hs : ∀ sigs, sigers = some sigs → (∀ x ∈ sigs, Genuine E x) ∧ sigs.length < 2 ^ 32) (hw : ∀ sigs, wigers = some sigs → (∀ x ∈ sigs, Genuine E x) ∧ sigs.length < 2 ^ 32)
    (hseal : ∀ x, sealed = some x → Readable E x) :
    ((∃ m, messagize E s sigers sealed wigers cigars = .ok m) ↔ ¬ (sigers = none ∧ wigers = none ∧ cigars = none) ∧ Sendable sigers sealed wigers) ∧
    messagize E s sigers sealed wigers cigars ≠ .panic := by
  obtain ⟨h1, h2⟩ := attached zeroHash hs hw hseal
  have e : messagize E s sigers sealed wigers cigars = if sigers = none ∧ wigers = none ∧ cigars = none then .err .value else
      (do let a ← controllerText E sealed sigers; let b ← witnessText E wigers; .ok (s.raw ++ (a ++ b))) := by
    unfold messagize
    rw [fromUtf8, if_pos hu, Res.ok_bind]
    simp only [Option.isNone_iff_eq_none]
  rw [e]
  by_cases hn : sigers = none ∧ wigers = none ∧ cigars = none
  · rw [if_pos hn]
    exact ⟨⟨fun ⟨_, h⟩ => (by cases h), fun h => absurd hn h.1⟩, by simp⟩
  · rw [if_neg hn]
    by_cases hsend : Sendable sigers sealed wigers
    · obtain ⟨a, b, _, ha, hb, _⟩ := h2 hsend
      rw [ha, Res.ok_bind, hb, Res.ok_bind]
      exact ⟨⟨fun _ => ⟨hn, hsend⟩, fun _ => ⟨_, rfl⟩⟩, by simp⟩
    · obtain ⟨err, he⟩ := h1 hsend
      have : (do let a ← controllerText E sealed sigers; let b ← witnessText E wigers; .ok (s.raw ++ (a ++ b)) : Res Str) = .err err := by
        cases ha : controllerText E sealed sigers with
        | ok a =>
          rw [ha, Res.ok_bind] at he
          cases hb : witnessText E wigers with
          | ok b => rw [hb] at he; cases he
          | err x => rw [hb] at he; exact he
          | panic => rw [hb] at he; cases he
        | err x => rw [ha] at he; exact he
        | panic => rw [ha] at he; cases he
      rw [this]
      exact ⟨⟨fun ⟨_, h⟩ => (by cases h), fun h => absurd h.2 hsend⟩, by simp⟩

/-- C109. What is written is read: the event, the signatures of the controller with the seal in front of them, those of the witnesses, and the text that follows (which must not
begin with a counter). -/
theorem C109_read {E : Env} {F : Str → Option Str} {H : Hash} {s : Sadder} {sigers : Option (List Siger)} {sealed : Option Seal} {wigers : Option (List Siger)} {cigars : Option (List Cigar)}
    (hs : ∀ sigs, sigers = some sigs → (∀ x ∈ sigs, Genuine E x) ∧ sigs.length < 2 ^ 32) (hw : ∀ sigs, wigers = some sigs → (∀ x ∈ sigs, Genuine E x) ∧ sigs.length < 2 ^ 32)
    (hseal : ∀ x, sealed = some x → Readable E x) {m : Str} (h : messagize E s sigers sealed wigers cigars = .ok m)
    (hread : ∀ tail, utf8Valid tail = true → Serder.newWithRaw E F H (s.raw ++ tail) = .ok s) :
    ∃ gs, ControllerGroup E sigers sealed gs ∧ ∀ left, utf8Valid left = true → left.head? ≠ some (ch '-') →
      readMessage E F H (m ++ left) = .ok { event := s, groups := gs ++ witnessGroup wigers, left := left } := by
  have hu : utf8Valid s.raw = true := by
    unfold messagize at h
    rw [fromUtf8] at h
    split at h
    · assumption
    · cases h
  have hsend := ((C109_written (cigars := cigars) hu hs hw hseal).1.mp ⟨m, h⟩).2
  obtain ⟨a, b, gs, ha, hb, hg, hasc, hr⟩ := (attached H hs hw hseal).2 hsend
  unfold messagize at h
  rw [fromUtf8, if_pos hu, Res.ok_bind] at h
  split at h
  · cases h
  · rw [ha, Res.ok_bind, hb, Res.ok_bind] at h
    obtain rfl := Res.ok.inj h
    refine ⟨gs, hg, fun left hl hh => ?_⟩
    have ut := utf8_front hasc hl
    have hsl : slice (s.raw ++ (a ++ b) ++ left) s.raw.length (s.raw ++ (a ++ b) ++ left).length = .ok (a ++ b ++ left) := by
      unfold slice
      rw [if_pos ⟨by simp, Nat.le_refl _⟩, List.take_length, List.append_assoc s.raw, List.drop_left]
    unfold readMessage
    have he : Serder.newWithRaw E F H (s.raw ++ (a ++ b) ++ left) = .ok s := by rw [List.append_assoc s.raw]; exact hread _ ut
    rw [he, Res.ok_bind, hsl, Res.ok_bind, fromUtf8, if_pos ut, Res.ok_bind, List.append_assoc a, hr left hl hh, Res.ok_bind]

end Builder
end Cesride
