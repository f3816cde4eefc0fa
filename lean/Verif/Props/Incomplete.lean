import Verif.Props.Stream

/-! # Property C89: incomplete streams -/

namespace Cesride
open Spec

/-- What a constructor answers to the first `j` characters of a text that needs more. -/
def waitText (k : Kind) (j : Nat) : Res Item :=
  if j = 0 then .err .emptyMaterial else if j = 1 ∧ k = .count then .panic else .err .shortage

/-- The same for the first `j` bytes of a binary form. -/
def waitBinary (k : Kind) (j : Nat) : Res Item :=
  if j = 0 then .err .emptyMaterial else if j = 1 ∧ k = .count then .err .tooSmall else .err .shortage

theorem Item.wait_text {E : Env} {i : Item} (ho : i.Obtainable E) {t : Str} (ht : i.qb64 E = .ok t) {j : Nat} (hj : j < t.length) :
    Item.ofText E i.kind (t.take j) = waitText i.kind j := by
  cases i with
  | prim m =>
    obtain ⟨t', b, h1, _, h3, _⟩ := C08_truncated E (show Obtained E m from ho)
    have ht : m.qb64 E = .ok t := ht
    obtain rfl := Res.ok.inj (h1.symm.trans ht)
    show (do let m ← Matter.ofText E (t'.take j); Res.ok (Item.prim m)) = _
    rw [h3 j hj]
    unfold waitText Item.kind
    split <;> simp [*]
  | sig x =>
    obtain ⟨c, hc, ho⟩ := (show ∃ c ∈ Spec.idxCodes, IdxObtained E c x from ho)
    obtain ⟨t', h1, h3, _⟩ := C21_truncated E hc ho
    have ht : x.qb64 E = .ok t := ht
    obtain rfl := Res.ok.inj (h1.symm.trans ht)
    show (do let m ← Indexer.ofText E (t'.take j); Res.ok (Item.sig m)) = _
    rw [h3 j hj]
    unfold waitText Item.kind
    split <;> simp [*]
  | count c =>
    obtain ⟨t', b, h1, _, h3, _⟩ := C25_truncated E (show CounterObtained E c from ho)
    have ht : c.qb64 E = .ok t := ht
    obtain rfl := Res.ok.inj (h1.symm.trans ht)
    show (do let m ← Counter.ofText E (t'.take j); Res.ok (Item.count m)) = _
    rw [h3 j hj]
    unfold waitText Item.kind
    split
    · rfl
    · split
      · rename_i h; simp [h]
      · rename_i h; simp [h]

theorem Item.wait_binary {E : Env} {i : Item} (ho : i.Obtainable E) {t : List UInt8} (ht : i.qb2 E = .ok t) {j : Nat} (hj : j < t.length) :
    Item.ofBinary E i.kind (t.take j) = waitBinary i.kind j := by
  cases i with
  | prim m =>
    obtain ⟨_, b, _, h1, _, _, h3⟩ := C08_truncated E (show Obtained E m from ho)
    have ht : m.qb2 E = .ok t := ht
    obtain rfl := Res.ok.inj (h1.symm.trans ht)
    show (do let m ← Matter.ofBinary E (b.take j); Res.ok (Item.prim m)) = _
    rw [h3 j hj]
    unfold waitBinary Item.kind
    split <;> simp [*]
  | sig x =>
    obtain ⟨c, hc, ho⟩ := (show ∃ c ∈ Spec.idxCodes, IdxObtained E c x from ho)
    obtain ⟨_, _, _, h3⟩ := C21_truncated E hc ho
    have ht : x.qb2 E = .ok t := ht
    show (do let m ← Indexer.ofBinary E (t.take j); Res.ok (Item.sig m)) = _
    rw [h3 t ht j hj]
    unfold waitBinary Item.kind
    split <;> simp [*]
  | count c =>
    obtain ⟨_, b, _, h1, _, h3⟩ := C25_truncated E (show CounterObtained E c from ho)
    have ht : c.qb2 E = .ok t := ht
    obtain rfl := Res.ok.inj (h1.symm.trans ht)
    show (do let m ← Counter.ofBinary E (b.take j); Res.ok (Item.count m)) = _
    rw [h3 j hj]
    unfold waitBinary Item.kind
    split
    · rfl
    · split
      · rename_i h; simp [h]
      · rename_i h; simp [h]

/-- C89, text. Of a stream of elements the first `k` characters have arrived. The elements that are complete are read as they were sent; what is
left over is the beginning of the next element, and its constructor answers that there is nothing or too little (one character of a counter: it
panics). -/
theorem C89_text (E : Env) {is : List Item} {s : Str} (ho : ∀ i ∈ is, i.Obtainable E) (h : ItemText E is s) {k : Nat} (hk : k < s.length) :
    ∃ done i more t j, is = done ++ i :: more ∧ i.qb64 E = .ok t ∧ j < t.length ∧
      readText E (done.map Item.kind) (s.take k) = .ok (done, t.take j) ∧ Item.ofText E i.kind (t.take j) = waitText i.kind j := by
  induction h generalizing k with
  | nil => simp at hk
  | @cons i is t s hq hs ih =>
    by_cases hlt : k < t.length
    · exact ⟨[], i, is, t, k, rfl, hq, hlt, by rw [List.take_append_of_le_length (by omega)]; rfl, Item.wait_text (ho i (by simp)) hq hlt⟩
    · have ho' : ∀ i ∈ is, i.Obtainable E := fun i hi => ho i (List.mem_cons_of_mem _ hi)
      obtain ⟨done, i', more, t', j, e, hq', hj, hr, hw⟩ := ih ho' (k := k - t.length) (by rw [List.length_append] at hk; omega)
      refine ⟨i :: done, i', more, t', j, by rw [e]; rfl, hq', hj, ?_, hw⟩
      obtain ⟨t0, ht, hf, _, _, hb, hp, _⟩ := (ho i (by simp)).facts
      obtain rfl := Res.ok.inj (ht.symm.trans hq)
      have hv : utf8Valid (s.take (k - t0.length)) = true :=
        utf8Valid_ascii (fun c hc => isB64Text_ascii (hs.b64 ho') c (List.mem_of_mem_take hc))
      rw [List.take_append, List.take_of_length_le (by omega)]
      simp only [List.map_cons, readText]
      rw [hp _ hv, Res.ok_bind, hf, Res.ok_bind]
      have hsl : sliceStr (t0 ++ s.take (k - t0.length)) t0.length (t0 ++ s.take (k - t0.length)).length = .ok (s.take (k - t0.length)) := by
        unfold sliceStr
        rw [if_pos ⟨by simp, Nat.le_refl _, isBoundary_prefix (isB64Text_ascii hb) hv (Nat.le_refl _), by simp [isBoundary]⟩]
        rw [List.take_length, List.drop_left]
      rw [hsl, Res.ok_bind, hr]
      rfl

/-- C89, binary. -/
theorem C89_binary (E : Env) {is : List Item} {b : List UInt8} (ho : ∀ i ∈ is, i.Obtainable E) (h : ItemBinary E is b) {k : Nat} (hk : k < b.length) :
    ∃ done i more t j, is = done ++ i :: more ∧ i.qb2 E = .ok t ∧ j < t.length ∧
      readBinary E (done.map Item.kind) (b.take k) = .ok (done, t.take j) ∧ Item.ofBinary E i.kind (t.take j) = waitBinary i.kind j := by
  induction h generalizing k with
  | nil => simp at hk
  | @cons i is t s hq hs ih =>
    by_cases hlt : k < t.length
    · exact ⟨[], i, is, t, k, rfl, hq, hlt, by rw [List.take_append_of_le_length (by omega)]; rfl, Item.wait_binary (ho i (by simp)) hq hlt⟩
    · have ho' : ∀ i ∈ is, i.Obtainable E := fun i hi => ho i (List.mem_cons_of_mem _ hi)
      obtain ⟨done, i', more, t', j, e, hq', hj, hr, hw⟩ := ih ho' (k := k - t.length) (by rw [List.length_append] at hk; omega)
      refine ⟨i :: done, i', more, t', j, by rw [e]; rfl, hq', hj, ?_, hw⟩
      obtain ⟨t0, ht, hf, _, _, _, _, hp⟩ := (ho i (by simp)).facts
      obtain ⟨_, hl, hp⟩ := hp _ hq
      rw [List.take_append, List.take_of_length_le (by omega)]
      simp only [List.map_cons, readBinary]
      rw [hp, Res.ok_bind, hf, Res.ok_bind, ← hl]
      have hsl : slice (t ++ s.take (k - t.length)) t.length (t ++ s.take (k - t.length)).length = .ok (s.take (k - t.length)) := by
        unfold slice
        rw [if_pos ⟨by simp, Nat.le_refl _⟩, List.take_length, List.drop_left]
      rw [hsl, Res.ok_bind, hr]
      rfl

/-! ## A client that reads while the stream arrives

The loops are client code; they wait while fewer than four characters (three bytes) are there, and when a constructor reports a shortage. -/

/-- Read as many elements as have arrived. The result: these elements, the kinds still expected, the rest of the buffer. -/
def drainText (E : Env) : List Kind → Str → Res (List Item × List Kind × Str)
  | [], s => .ok ([], [], s)
  | k :: ks, s =>
    if s.length < 4 then .ok ([], k :: ks, s)
    else match Item.ofText E k s with
      | .err .shortage => .ok ([], k :: ks, s)
      | .err e => .err e
      | .panic => .panic
      | .ok i => do
        let n ← i.fullSize
        let rest ← sliceStr s n s.length
        let (is, ks, s) ← drainText E ks rest
        .ok (i :: is, ks, s)

/-- The same in binary. -/
def drainBinary (E : Env) : List Kind → List UInt8 → Res (List Item × List Kind × List UInt8)
  | [], b => .ok ([], [], b)
  | k :: ks, b =>
    if b.length < 3 then .ok ([], k :: ks, b)
    else match Item.ofBinary E k b with
      | .err .shortage => .ok ([], k :: ks, b)
      | .err e => .err e
      | .panic => .panic
      | .ok i => do
        let n ← i.fullSize
        let rest ← slice b (n / 4 * 3) b.length
        let (is, ks, b) ← drainBinary E ks rest
        .ok (i :: is, ks, b)

/-- Let the pieces of a stream arrive one after the other: the elements read, the kinds still expected, the unread rest. -/
def feed (drain : List Kind → List UInt8 → Res (List Item × List Kind × List UInt8)) :
    List (List UInt8) → List Kind → List UInt8 → Res (List Item × List Kind × List UInt8)
  | [], ks, buf => .ok ([], ks, buf)
  | c :: cs, ks, buf => do
    let (is, ks, buf) ← drain ks (buf ++ c)
    let (js, ks, buf) ← feed drain cs ks buf
    .ok (is ++ js, ks, buf)

theorem drainText_step (E : Env) {is : List Item} {w : Str} (ho : ∀ i ∈ is, i.Obtainable E) (h : ItemText E is w) : ∀ {buf future : Str}, w = buf ++ future →
    ∃ done rest tail, drainText E (is.map Item.kind) buf = .ok (done, rest.map Item.kind, tail) ∧ is = done ++ rest ∧ ItemText E rest (tail ++ future) ∧
      (future = [] → rest = [] ∧ tail = []) := by
  induction h with
  | nil =>
    intro buf future e
    obtain ⟨rfl, rfl⟩ : buf = [] ∧ future = [] := by simpa using e.symm
    exact ⟨[], [], [], rfl, rfl, .nil, fun _ => ⟨rfl, rfl⟩⟩
  | @cons i is t s hq hs ih =>
    intro buf future e
    have hi := ho i (by simp)
    have ho' : ∀ i ∈ is, i.Obtainable E := fun i hi => ho i (List.mem_cons_of_mem _ hi)
    obtain ⟨t0, ht, hf, h4, h0, hb, hp, _⟩ := hi.facts
    obtain rfl := Res.ok.inj (ht.symm.trans hq)
    by_cases hlt : buf.length < t0.length
    · have hbuf : buf = t0.take buf.length := by
        have := congrArg (List.take buf.length) e
        rw [List.take_append_of_le_length (by omega), List.take_left] at this
        exact this.symm
      refine ⟨[], i :: is, buf, ?_, rfl, by rw [← e]; exact .cons hq hs, fun hn => ?_⟩
      · simp only [List.map_cons, drainText]
        split
        · rfl
        · rename_i hl
          have hw := Item.wait_text hi hq hlt
          rw [← hbuf] at hw
          rw [hw]
          unfold waitText
          rw [if_neg (by omega), if_neg (by omega)]
      · subst hn
        have := congrArg List.length e
        rw [List.length_append, List.append_nil] at this
        omega
    · obtain ⟨buf', rfl⟩ : ∃ buf', buf = t0 ++ buf' := by
        refine ⟨buf.drop t0.length, ?_⟩
        have := congrArg (List.take t0.length) e
        rw [List.take_left, List.take_append_of_le_length (by omega)] at this
        have h := List.take_append_drop t0.length buf
        rw [← this] at h
        exact h.symm
      rw [List.append_assoc] at e
      have e := List.append_cancel_left e
      obtain ⟨done, rest, tail, h1, h2, h3, h5⟩ := ih ho' e
      refine ⟨i :: done, rest, tail, ?_, by rw [h2]; rfl, h3, h5⟩
      have hv : utf8Valid buf' = true := utf8Valid_ascii (fun c hc => isB64Text_ascii (hs.b64 ho') c (by rw [e]; simp [hc]))
      simp only [List.map_cons, drainText]
      rw [if_neg (by rw [List.length_append]; omega), hp _ hv]
      dsimp only
      have hsl : sliceStr (t0 ++ buf') t0.length (t0 ++ buf').length = .ok buf' := by
        unfold sliceStr
        rw [if_pos ⟨by simp, Nat.le_refl _, isBoundary_prefix (isB64Text_ascii hb) hv (Nat.le_refl _), by simp [isBoundary]⟩]
        rw [List.take_length, List.drop_left]
      rw [hf, Res.ok_bind, hsl, Res.ok_bind, h1]
      rfl

theorem drainBinary_step (E : Env) {is : List Item} {w : List UInt8} (ho : ∀ i ∈ is, i.Obtainable E) (h : ItemBinary E is w) :
    ∀ {buf future : List UInt8}, w = buf ++ future →
    ∃ done rest tail, drainBinary E (is.map Item.kind) buf = .ok (done, rest.map Item.kind, tail) ∧ is = done ++ rest ∧ ItemBinary E rest (tail ++ future) ∧
      (future = [] → rest = [] ∧ tail = []) := by
  induction h with
  | nil =>
    intro buf future e
    obtain ⟨rfl, rfl⟩ : buf = [] ∧ future = [] := by simpa using e.symm
    exact ⟨[], [], [], rfl, rfl, .nil, fun _ => ⟨rfl, rfl⟩⟩
  | @cons i is t s hq hs ih =>
    intro buf future e
    have hi := ho i (by simp)
    have ho' : ∀ i ∈ is, i.Obtainable E := fun i hi => ho i (List.mem_cons_of_mem _ hi)
    obtain ⟨t0, _, hf, h4, h0, _, _, hp⟩ := hi.facts
    obtain ⟨_, hl, hp⟩ := hp _ hq
    by_cases hlt : buf.length < t.length
    · have hbuf : buf = t.take buf.length := by
        have := congrArg (List.take buf.length) e
        rw [List.take_append_of_le_length (by omega), List.take_left] at this
        exact this.symm
      refine ⟨[], i :: is, buf, ?_, rfl, by rw [← e]; exact .cons hq hs, fun hn => ?_⟩
      · simp only [List.map_cons, drainBinary]
        split
        · rfl
        · rename_i hl
          have hw := Item.wait_binary hi hq hlt
          rw [← hbuf] at hw
          rw [hw]
          unfold waitBinary
          rw [if_neg (by omega), if_neg (by omega)]
      · subst hn
        have := congrArg List.length e
        rw [List.length_append, List.append_nil] at this
        omega
    · obtain ⟨buf', rfl⟩ : ∃ buf', buf = t ++ buf' := by
        refine ⟨buf.drop t.length, ?_⟩
        have := congrArg (List.take t.length) e
        rw [List.take_left, List.take_append_of_le_length (by omega)] at this
        have h := List.take_append_drop t.length buf
        rw [← this] at h
        exact h.symm
      rw [List.append_assoc] at e
      have e := List.append_cancel_left e
      obtain ⟨done, rest, tail, h1, h2, h3, h5⟩ := ih ho' e
      refine ⟨i :: done, rest, tail, ?_, by rw [h2]; rfl, h3, h5⟩
      simp only [List.map_cons, drainBinary]
      rw [if_neg (by rw [List.length_append]; omega), hp]
      dsimp only
      have hsl : slice (t ++ buf') t.length (t ++ buf').length = .ok buf' := by
        unfold slice
        rw [if_pos ⟨by simp, Nat.le_refl _⟩, List.take_length, List.drop_left]
      rw [hf, Res.ok_bind, ← hl, hsl, Res.ok_bind, h1]
      rfl

theorem feed_all {drain : List Kind → List UInt8 → Res (List Item × List Kind × List UInt8)} {E : Env} {P : List Item → List UInt8 → Prop}
    (hnil : ∀ is, (∀ i ∈ is, i.Obtainable E) → P is [] → is = [])
    (step : ∀ {is w}, (∀ i ∈ is, i.Obtainable E) → P is w → ∀ {buf future}, w = buf ++ future →
      ∃ done rest tail, drain (is.map Item.kind) buf = .ok (done, rest.map Item.kind, tail) ∧ is = done ++ rest ∧ P rest (tail ++ future) ∧
        (future = [] → rest = [] ∧ tail = [])) :
    ∀ (chunks : List (List UInt8)) {is : List Item} {buf : List UInt8}, (∀ i ∈ is, i.Obtainable E) → P is (buf ++ chunks.flatten) → (chunks = [] → buf = []) →
      feed drain chunks (is.map Item.kind) buf = .ok (is, [], [])
  | [], is, buf, ho, h, hb => by
    obtain rfl := hb rfl
    obtain rfl := hnil _ ho (by simpa using h)
    rfl
  | c :: cs, is, buf, ho, h, _ => by
    obtain ⟨done, rest, tail, h1, h2, h3, h4⟩ := step ho h (buf := buf ++ c) (future := cs.flatten) (by simp)
    have ho' : ∀ i ∈ rest, i.Obtainable E := fun i hi => ho i (by rw [h2]; simp [hi])
    have := feed_all hnil step cs ho' h3 (fun e => (h4 (by rw [e]; rfl)).2)
    unfold feed
    rw [h1, Res.ok_bind]
    dsimp only
    rw [this, Res.ok_bind, h2]

/-- C89, every schedule: however a stream of elements is cut into pieces on its way (inside an element, at its end, into empty pieces, all at once),
the client has read exactly the elements that were sent when the last piece has arrived, in their order, and nothing is left over. -/
theorem C89_schedule_text (E : Env) {is : List Item} {s : Str} (ho : ∀ i ∈ is, i.Obtainable E) (h : ItemText E is s) (chunks : List Str) (hc : chunks.flatten = s) :
    feed (drainText E) chunks (is.map Item.kind) [] = .ok (is, [], []) := by
  refine feed_all (P := ItemText E) (E := E) ?_ (fun ho h => drainText_step E ho h) chunks ho (by rw [List.nil_append, hc]; exact h) (fun _ => rfl)
  intro is ho h
  cases is with
  | nil => rfl
  | cons i is =>
    exfalso
    generalize e : ([] : Str) = w at h
    cases h with
    | @cons _ _ t s hq _ =>
      obtain ⟨t0, ht, _, _, h0, _⟩ := (ho i (by simp)).facts
      obtain rfl := Res.ok.inj (ht.symm.trans hq)
      have := congrArg List.length e
      simp at this
      omega

theorem C89_schedule_binary (E : Env) {is : List Item} {b : List UInt8} (ho : ∀ i ∈ is, i.Obtainable E) (h : ItemBinary E is b) (chunks : List (List UInt8))
    (hc : chunks.flatten = b) : feed (drainBinary E) chunks (is.map Item.kind) [] = .ok (is, [], []) := by
  refine feed_all (P := ItemBinary E) (E := E) ?_ (fun ho h => drainBinary_step E ho h) chunks ho (by rw [List.nil_append, hc]; exact h) (fun _ => rfl)
  intro is ho h
  cases is with
  | nil => rfl
  | cons i is =>
    exfalso
    generalize e : ([] : List UInt8) = w at h
    cases h with
    | @cons _ _ t s hq _ =>
      obtain ⟨t0, _, _, h4, h0, _, _, hp⟩ := (ho i (by simp)).facts
      obtain ⟨_, hl, _⟩ := hp _ hq
      have := congrArg List.length e
      rw [List.length_append] at this
      simp at this
      omega

/-- The elements of C75's sample, one character at a time, and cut into three pieces with an empty one. -/
example : ∃ s, ItemText Env.debug sampleItems s ∧ s.length = 96 ∧
    feed (drainText Env.debug) (s.map ([·])) (sampleItems.map Item.kind) [] = .ok (sampleItems, [], []) ∧
    feed (drainText Env.debug) [s.take 5, [], s.drop 5] (sampleItems.map Item.kind) [] = .ok (sampleItems, [], []) := by
  have h : ItemText Env.debug sampleItems (lit "-AAB" ++ ((lit "AFAH" ++ (List.replicate 21 (lit "BwcH")).flatten) ++ (lit "MAEC" ++ []))) :=
    .cons (by decide +kernel) (.cons (by decide +kernel) (.cons (by decide +kernel) .nil))
  exact ⟨_, h, by decide +kernel, C89_schedule_text _ sample_obtainable h _ (by rw [← List.flatMap_def, List.flatMap_singleton']),
    C89_schedule_text _ sample_obtainable h _ (by simp)⟩

end Cesride
