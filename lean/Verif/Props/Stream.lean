import Verif.Props.Matter
import Verif.Props.Indexer
import Verif.Props.Counter

/-!
# Property C75: streams of primitives, indexed signatures and counters

A CESR stream concatenates encodings of all three kinds. The client below is the one a user of the library writes:
parse an object of the kind expected at the front of the stream, ask it for `full_size`, drop that many characters
(or three quarters of that many bytes) and go on. Its loop is not library code; everything it calls is.
-/

namespace Cesride

/-- The three kinds of stream element. -/
inductive Kind | prim | sig | count
  deriving DecidableEq, Repr

/-- A stream element. -/
inductive Item
  | prim (m : Matter)
  | sig (x : Indexer)
  | count (c : Counter)
  deriving DecidableEq, Repr

namespace Item

def kind : Item → Kind
  | prim _ => .prim
  | sig _ => .sig
  | count _ => .count

/-- The text form of an element: `qb64` of its class. -/
def qb64 (E : Env) : Item → Res Str
  | prim m => m.qb64 E
  | sig x => x.qb64 E
  | count c => c.qb64 E

/-- The binary form of an element: `qb2` of its class. -/
def qb2 (E : Env) : Item → Res (List UInt8)
  | prim m => m.qb2 E
  | sig x => x.qb2 E
  | count c => c.qb2 E

/-- `full_size` of its class. -/
def fullSize : Item → Res Nat
  | prim m => m.fullSize
  | sig x => x.fullSize
  | count c => c.fullSize

/-- Elements a caller can obtain through the public constructors. -/
def Obtainable (E : Env) : Item → Prop
  | prim m => Obtained E m
  | sig x => ∃ c ∈ Spec.idxCodes, IdxObtained E c x
  | count c => CounterObtained E c

/-- The text constructor of the class. -/
def ofText (E : Env) : Kind → Str → Res Item
  | .prim, s => do
    let m ← Matter.ofText E s
    .ok (prim m)
  | .sig, s => do
    let x ← Indexer.ofText E s
    .ok (sig x)
  | .count, s => do
    let c ← Counter.ofText E s
    .ok (count c)

/-- The binary constructor of the class. -/
def ofBinary (E : Env) : Kind → List UInt8 → Res Item
  | .prim, b => do
    let m ← Matter.ofBinary E b
    .ok (prim m)
  | .sig, b => do
    let x ← Indexer.ofBinary E b
    .ok (sig x)
  | .count, b => do
    let c ← Counter.ofBinary E b
    .ok (count c)

end Item

/-- The client's loop over text: one element per expected kind, advancing by `full_size` characters. -/
def readText (E : Env) : List Kind → Str → Res (List Item × Str)
  | [], s => .ok ([], s)
  | k :: ks, s => do
    let i ← Item.ofText E k s
    let n ← i.fullSize
    let rest ← sliceStr s n s.length
    let (is, r) ← readText E ks rest
    .ok (i :: is, r)

/-- The client's loop over binary: advancing by three bytes for every four characters of `full_size`. -/
def readBinary (E : Env) : List Kind → List UInt8 → Res (List Item × List UInt8)
  | [], b => .ok ([], b)
  | k :: ks, b => do
    let i ← Item.ofBinary E k b
    let n ← i.fullSize
    let rest ← slice b (n / 4 * 3) b.length
    let (is, r) ← readBinary E ks rest
    .ok (i :: is, r)

/-- `s` is the concatenation of the text forms of the elements. -/
inductive ItemText (E : Env) : List Item → Str → Prop
  | nil : ItemText E [] []
  | cons {i is t s} : i.qb64 E = .ok t → ItemText E is s → ItemText E (i :: is) (t ++ s)

/-- `b` is the concatenation of the binary forms of the elements. -/
inductive ItemBinary (E : Env) : List Item → List UInt8 → Prop
  | nil : ItemBinary E [] []
  | cons {i is t s} : i.qb2 E = .ok t → ItemBinary E is s → ItemBinary E (i :: is) (t ++ s)

theorem textBits_length' (t : Str) : (Spec.textBits t).length = 6 * t.length := by
  induction t with
  | nil => rfl
  | cons a l ih => simp only [Spec.textBits, List.flatMap_cons, List.length_append] at ih ⊢; rw [ih]; simp [Spec.charBits]; omega

theorem bytesBits_length' (b : List UInt8) : (Spec.bytesBits b).length = 8 * b.length := by
  induction b with
  | nil => rfl
  | cons a l ih => simp only [Spec.bytesBits, List.flatMap_cons, List.length_append] at ih ⊢; rw [ih]; simp [Spec.byteBits]; omega

/-- What every obtainable element satisfies, whatever its kind. -/
theorem Item.Obtainable.facts {E : Env} {i : Item} (h : i.Obtainable E) :
    ∃ t, i.qb64 E = .ok t ∧ i.fullSize = .ok t.length ∧ t.length % 4 = 0 ∧ 0 < t.length ∧ Spec.IsB64Text t ∧
      (∀ rest, utf8Valid rest = true → Item.ofText E i.kind (t ++ rest) = .ok i) ∧
      (∀ b, i.qb2 E = .ok b → Spec.IsDecoding t b ∧ b.length = t.length / 4 * 3 ∧
        ∀ rest, Item.ofBinary E i.kind (b ++ rest) = .ok i) := by
  cases i with
  | prim m =>
    have h : Obtained E m := h
    obtain ⟨t, b, n, h1, h2, h3, h4, h5, h6, h7, h8, h9⟩ := C13_aligned E h
    obtain ⟨t', b', k1, k2, k3, _, k5⟩ := C07_self_framing E h
    obtain ⟨t'', b'', j1, j2, j3, _⟩ := C03_domains_equivalent E h
    obtain rfl := Res.ok.inj (h1.symm.trans k1)
    obtain rfl := Res.ok.inj (h1.symm.trans j1)
    obtain rfl := Res.ok.inj (h2.symm.trans k2)
    obtain rfl := Res.ok.inj (h2.symm.trans j2)
    refine ⟨t, h1, by rw [h6]; exact h3, by omega, ?_, h5, fun r hr => ?_, fun c hc => ?_⟩
    · have := k3 [] rfl
      cases t with
      | nil => exact absurd this (by simp [Matter.ofText, Matter.new, Matter.newWithQb64, Matter.exfil])
      | cons _ _ => simp
    · show (do let m ← Matter.ofText E (t ++ r); Res.ok (Item.prim m)) = _
      rw [k3 r hr]; rfl
    · obtain rfl := Res.ok.inj (h2.symm.trans hc)
      refine ⟨j3, by omega, fun r => ?_⟩
      show (do let m ← Matter.ofBinary E (b ++ r); Res.ok (Item.prim m)) = _
      rw [k5 r]; rfl
  | sig x =>
    obtain ⟨c, hc, h⟩ : ∃ c ∈ Spec.idxCodes, IdxObtained E c x := h
    obtain ⟨_, w, hm⟩ := h.wf hc
    have h4 := w.arith.2.2.2.1
    have hl := w.text_length
    have hle := w.arith.2.2.2.2.2
    have hs := (Indexer.row_of_sizage w.szg).hs1
    refine ⟨_, w.infil E, by rw [hl]; exact fullSize_eq w.szg, by omega, by omega, (isB64Text_iff _).mpr w.text_b64,
      fun r hr => ?_, fun b hb => ?_⟩
    · show (do let m ← Indexer.ofText E (_ ++ r); Res.ok (Item.sig m)) = _
      rw [show Indexer.ofText E (Indexer.text x (idxRow c) ++ r) = _ from w.exfil hm hr]; rfl
    · obtain ⟨t, ht, hd, hbl⟩ := C19_domains_equivalent E hc h hb
      obtain rfl := Res.ok.inj ((w.infil E).symm.trans ht)
      refine ⟨hd, by omega, fun r => ?_⟩
      obtain ⟨_, _, _, hself⟩ := C21_self_framing E hc h
      show (do let m ← Indexer.ofBinary E (b ++ r); Res.ok (Item.sig m)) = _
      rw [hself b hb r]; rfl
  | count c =>
    have h : CounterObtained E c := h
    obtain ⟨t, b, h1, _, h2, h3, _, _, h4, h5, ds, h6, h7, _⟩ := C23_roundtrip E h
    obtain ⟨t', b', k1, k2, k3, k4⟩ := C25_self_framing E h
    obtain rfl := Res.ok.inj (h1.symm.trans k1)
    obtain rfl := Res.ok.inj (h2.symm.trans k2)
    have hm4 := (Counter.row_of_mem (counter_row h7)).m4
    have hlen : t.length = c.code.length + ds.length := by rw [h6, List.length_append]
    have hbits := congrArg List.length h4.2
    rw [textBits_length', bytesBits_length'] at hbits
    have hpos : 0 < t.length := by
      cases t with
      | nil => exact absurd h3 (by simp [Counter.ofText, Counter.new, Counter.exfil])
      | cons _ _ => simp
    refine ⟨t, h1, h5, by omega, hpos, h4.1, fun r hr => ?_, fun c' hc' => ?_⟩
    · show (do let m ← Counter.ofText E (t ++ r); Res.ok (Item.count m)) = _
      rw [k3 r hr]; rfl
    · obtain rfl := Res.ok.inj (h2.symm.trans hc')
      refine ⟨h4, by omega, fun r => ?_⟩
      show (do let m ← Counter.ofBinary E (b ++ r); Res.ok (Item.count m)) = _
      rw [k4 r]; rfl

theorem isB64Text_ascii {t : Str} (h : Spec.IsB64Text t) : Ascii t := fun c hc => isB64_lt128 c ((isB64Text_iff t).mp h c hc)

theorem ItemText.b64 {E : Env} {is : List Item} {s : Str} (h : ItemText E is s) (ho : ∀ i ∈ is, i.Obtainable E) :
    Spec.IsB64Text s := by
  induction h with
  | nil => intro c hc; cases hc
  | cons hq _ ih =>
    obtain ⟨t, ht, _, _, _, hb, _⟩ := (ho _ (List.mem_cons_self ..)).facts
    obtain rfl := Res.ok.inj (ht.symm.trans hq)
    have := ih (fun i hi => ho i (List.mem_cons_of_mem _ hi))
    intro c hc
    rcases List.mem_append.mp hc with hc | hc
    · exact hb c hc
    · exact this c hc

/-- C75 (a). Reading back a text stream of elements of mixed kinds, each parsed by its class and skipped by its
`full_size`, gives exactly the elements that were written and leaves exactly what followed them. -/
theorem C75_text_stream (E : Env) {is : List Item} {s rest : Str} (ho : ∀ i ∈ is, i.Obtainable E) (h : ItemText E is s)
    (hr : utf8Valid rest = true) : readText E (is.map Item.kind) (s ++ rest) = .ok (is, rest) := by
  induction h with
  | nil => rfl
  | @cons i is t s hq hs ih =>
    obtain ⟨t', ht, hf, _, _, hb, hp, _⟩ := (ho _ (List.mem_cons_self ..)).facts
    obtain rfl := Res.ok.inj (ht.symm.trans hq)
    have ho' : ∀ i ∈ is, i.Obtainable E := fun i hi => ho i (List.mem_cons_of_mem _ hi)
    have hv : utf8Valid (s ++ rest) = true := by rw [utf8Valid_ascii_append (isB64Text_ascii (hs.b64 ho'))]; exact hr
    simp only [List.map_cons, readText]
    rw [List.append_assoc, hp _ hv, Res.ok_bind, hf, Res.ok_bind]
    have hsl : sliceStr (t' ++ (s ++ rest)) t'.length (t' ++ (s ++ rest)).length = .ok (s ++ rest) := by
      unfold sliceStr
      rw [if_pos ⟨by simp, Nat.le_refl _, isBoundary_prefix (isB64Text_ascii hb) hv (Nat.le_refl _), by simp [isBoundary]⟩]
      rw [List.take_length, List.drop_left]
    rw [hsl, Res.ok_bind, ih ho', Res.ok_bind]

/-- C75 (b). The same in the binary domain, whatever bytes follow. -/
theorem C75_binary_stream (E : Env) {is : List Item} {b rest : List UInt8} (ho : ∀ i ∈ is, i.Obtainable E) (h : ItemBinary E is b) :
    readBinary E (is.map Item.kind) (b ++ rest) = .ok (is, rest) := by
  induction h with
  | nil => rfl
  | @cons i is t s hq hs ih =>
    obtain ⟨t', ht, hf, _, _, _, _, hp⟩ := (ho _ (List.mem_cons_self ..)).facts
    obtain ⟨_, hl, hp⟩ := hp _ hq
    have ho' : ∀ i ∈ is, i.Obtainable E := fun i hi => ho i (List.mem_cons_of_mem _ hi)
    simp only [List.map_cons, readBinary]
    rw [List.append_assoc, hp _, Res.ok_bind, hf, Res.ok_bind, ← hl]
    have hsl : slice (t ++ (s ++ rest)) t.length (t ++ (s ++ rest)).length = .ok (s ++ rest) := by
      unfold slice
      rw [if_pos ⟨by simp, Nat.le_refl _⟩, List.take_length, List.drop_left]
    rw [hsl, Res.ok_bind, ih ho', Res.ok_bind]

/-- C75 (c). Composability: decoding the whole text stream as Base64 gives the concatenation of the binary forms. -/
theorem C75_composable (E : Env) {is : List Item} {s : Str} {b : List UInt8} (ho : ∀ i ∈ is, i.Obtainable E)
    (ht : ItemText E is s) (hb : ItemBinary E is b) : Spec.IsDecoding s b ∧ b.length * 4 = s.length * 3 := by
  induction ht generalizing b with
  | nil => cases hb; exact ⟨⟨fun c hc => absurd hc List.not_mem_nil, rfl⟩, rfl⟩
  | @cons i is t s hq hs ih =>
    cases hb with
    | @cons _ _ u v hu hv =>
      obtain ⟨t', ht, _, h4, _, _, _, hp⟩ := (ho _ (List.mem_cons_self ..)).facts
      obtain rfl := Res.ok.inj (ht.symm.trans hq)
      obtain ⟨⟨d1, d2⟩, hl, _⟩ := hp _ hu
      obtain ⟨⟨e1, e2⟩, hl'⟩ := ih (fun i hi => ho i (List.mem_cons_of_mem _ hi)) hv
      refine ⟨⟨fun c hc => ?_, ?_⟩, ?_⟩
      · rcases List.mem_append.mp hc with hc | hc
        · exact d1 c hc
        · exact e1 c hc
      · have a1 : Spec.textBits (t' ++ s) = Spec.textBits t' ++ Spec.textBits s := by simp [Spec.textBits]
        have a2 : Spec.bytesBits (u ++ v) = Spec.bytesBits u ++ Spec.bytesBits v := by simp [Spec.bytesBits]
        rw [a1, a2, d2, e2]
      · simp only [List.length_append]; omega

/-- C75 (c), as a user meets it: convert a text stream to binary en bloc with any correct Base64 decoder, and the binary
reader finds the elements the text reader finds. -/
theorem C75_convert (E : Env) {is : List Item} {s : Str} {b b' : List UInt8} (ho : ∀ i ∈ is, i.Obtainable E)
    (ht : ItemText E is s) (hb : ItemBinary E is b) (hd : Spec.IsDecoding s b') :
    readText E (is.map Item.kind) s = .ok (is, []) ∧ readBinary E (is.map Item.kind) b' = .ok (is, []) := by
  obtain rfl := isDecoding_unique (C75_composable E ho ht hb).1 hd
  have h1 := C75_text_stream E ho ht (rest := []) rfl
  have h2 := C75_binary_stream E (rest := []) ho hb
  rw [List.append_nil] at h1 h2
  exact ⟨h1, h2⟩

/-- C75 (d). Two streams of the same kinds with the same text are the same stream; so are two with the same binary. -/
theorem C75_unambiguous (E : Env) {xs ys : List Item} (hx : ∀ i ∈ xs, i.Obtainable E) (hy : ∀ i ∈ ys, i.Obtainable E)
    (hk : xs.map Item.kind = ys.map Item.kind) :
    (∀ s, ItemText E xs s → ItemText E ys s → xs = ys) ∧ (∀ b, ItemBinary E xs b → ItemBinary E ys b → xs = ys) := by
  constructor
  · intro s h1 h2
    have a := C75_text_stream E hx h1 (rest := []) rfl
    rw [hk, C75_text_stream E hy h2 (rest := []) rfl] at a
    exact (congrArg Prod.fst (Res.ok.inj a)).symm
  · intro b h1 h2
    have a := C75_binary_stream E (rest := []) hx h1
    rw [hk, C75_binary_stream E (rest := []) hy h2] at a
    exact (congrArg Prod.fst (Res.ok.inj a)).symm

/-- C75 (e). A counted group: a counter whose count is the number of groups that follow, each group of the kinds `ks`.
A client that reads the counter first and then asks for that many groups recovers counter and members. -/
theorem C75_counted_group (E : Env) {c : Counter} {is : List Item} {t s rest : Str} (ks : List Kind) (hc : CounterObtained E c)
    (ho : ∀ i ∈ is, i.Obtainable E) (hk : is.map Item.kind = (List.replicate c.count ks).flatten) (ht : c.qb64 E = .ok t)
    (hs : ItemText E is s) (hr : utf8Valid rest = true) :
    (do
      let (first, more) ← readText E [.count] (t ++ s ++ rest)
      match first with
      | [.count n] => do
        let (members, left) ← readText E (List.replicate n.count ks).flatten more
        .ok (n, members, left)
      | _ => .panic) = .ok (c, is, rest) := by
  have hv : utf8Valid (s ++ rest) = true := by rw [utf8Valid_ascii_append (isB64Text_ascii (hs.b64 ho))]; exact hr
  have h1 := C75_text_stream E (is := [.count c]) (s := t ++ []) (rest := s ++ rest) (by intro i hi; simp at hi; subst hi; exact hc)
    (.cons ht .nil) hv
  rw [List.append_nil] at h1
  rw [List.append_assoc, show [Kind.count] = [Item.count c].map Item.kind from rfl, h1, Res.ok_bind]
  simp only
  rw [← hk, C75_text_stream E ho hs hr]
  rfl

/-- Non-vacuity: a counter announcing one signature, the indexed signature, a two byte number. -/
def sampleItems : List Item :=
  [.count { code := lit "-A", count := 1 },
   .sig { code := lit "A", index := 5, ondex := 5, raw := List.replicate 64 7 },
   .prim { code := lit "M", size := 0, raw := [1, 2] }]

theorem sample_obtainable : ∀ i ∈ sampleItems, i.Obtainable Env.debug := by
  intro i hi
  simp only [sampleItems, List.mem_cons, List.not_mem_nil, or_false] at hi
  rcases hi with rfl | rfl | rfl
  · exact .built (code := lit "-A") (count := 1) (by decide +kernel)
  · exact ⟨⟨lit "A", false, 1, false, 64⟩, by decide +kernel,
      .built (raw := List.replicate 64 7) (index := 5) (ondex := none) ⟨by decide, trivial⟩ (by decide +kernel)⟩
  · exact .built (code := lit "M") (raw := [1, 2, 3]) (.inl ⟨2, by decide⟩) (by decide +kernel)

example : readText Env.debug [.count, .sig, .prim]
    (lit "-AAB" ++ (lit "AFAH" ++ (List.replicate 21 (lit "BwcH")).flatten) ++ lit "MAEC" ++ lit "{rest") =
    .ok (sampleItems, lit "{rest") := by decide +kernel

end Cesride
