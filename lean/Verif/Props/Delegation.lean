import Verif.Props.Control
import Verif.Props.Data

/-! # Property C119: a delegated identifier needs its delegator

An identifier that was founded with a delegator (C111) shows its founding and its rotations as delegated events (`dip`, `drt`). A receiver that has the events of both demands that the delegator
has anchored (C115) the seal of each of them. This program of a receiver is part of the statement; everything it calls is the model of the library. -/

namespace Cesride
namespace Builder
open Common Spec Tholder R32

variable {E : Env} {F : Str → Option Str} {H : Hash} {C : Crypto}

/-- The entries of a seal. -/
def sealEntries (i : Str) (n : Nat) (d : Str) : List (Str × Value) := [(lit "i", .str i), (lit "s", .str (hexStr n)), (lit "d", .str d)]

/-- The seal of an event: its identifier, its number in hexadecimal and its SAID. -/
def sealOf (E : Env) (e : Sadder) : Res Value := do
  let i ← Serder.pre e
  let n ← Serder.sn E e
  let number ← Number.new E (some n) none none none none none none
  let s ← Number.numh number
  let d ← e.said E
  .ok (.obj [(lit "i", .str i), (lit "s", .str s), (lit "d", .str d)])

/-- Whether an event has a value among its data. -/
def carries (e : Sadder) (v : Value) : Bool :=
  match e.ked with
  | .obj o => match o.lookup (lit "a") with
    | some (.arr a) => a.any v.eq
    | _ => false
  | _ => false

/-- Whether an event is not delegated, or one of the events of its delegator carries its seal. -/
def approved (E : Env) (boss : List Sadder) (e : Sadder) : Res Bool := do
  let t ← e.ked.index (lit "t")
  let t ← t.toStr
  if t = lit "dip" ∨ t = lit "drt" then do
    let v ← sealOf E e
    .ok (boss.any (carries · v))
  else .ok true

/-- Whether all events of a history are approved. -/
def allApproved (E : Env) (boss : List Sadder) : List Sadder → Res Bool
  | [] => .ok true
  | e :: earlier => do
    let a ← approved E boss e
    let b ← allApproved E boss earlier
    .ok (a && b)

/-- Whether the first event of a history (the last one in the list) names the identifier of another one - that of its first event - as its delegator. -/
def named (boss mine : List Sadder) : Res Bool :=
  match boss.getLast?, mine.getLast? with
  | some b, some f => do
    let i ← Serder.pre b
    let map ← f.ked.toMap
    if Value.hasKey map (lit "di") then do
      let di ← f.ked.index (lit "di")
      let di ← di.toStr
      .ok (decide (di = i))
    else .ok false
  | _, _ => .ok false

/-- Whether a history is delegated by another one. -/
def delegation (E : Env) (boss mine : List Sadder) : Res Bool := do
  if ← named boss mine then allApproved E boss mine else .ok false

/-- A receiver that reads the events of a delegator from one stream and those of a delegated identifier from another. -/
def receiveDelegated (E : Env) (F : Str → Option Str) (H : Hash) (C : Crypto) (n m : Nat) (bossStream stream : List UInt8) : Res (List Sadder × List Sadder) := do
  let (boss, _) ← receive E F H C n bossStream
  let (mine, _) ← receive E F H C m stream
  if ← delegation E boss mine then .ok (boss, mine) else .err .validation

/-- An event is delegated: it founds or rotates a delegated identifier. -/
def Delegated (e : Sadder) : Prop := e.ked.index (lit "t") = .ok (.str (lit "dip")) ∨ e.ked.index (lit "t") = .ok (.str (lit "drt"))

/-- Among the data of an event is an object with exactly the identifier, the number and the SAID of another event. -/
def Seals (E : Env) (b e : Sadder) : Prop :=
  ∃ i n d a o, Serder.pre e = .ok i ∧ Serder.sn E e = .ok n ∧ e.said E = .ok d ∧ b.ked.index (lit "a") = .ok (.arr a) ∧ .obj o ∈ a ∧ o.length = 3 ∧
    o.lookup (lit "i") = some (.str i) ∧ o.lookup (lit "s") = some (.str (hexStr n)) ∧ o.lookup (lit "d") = some (.str d)

/-! ## Proofs -/

theorem sn_lt {e : Sadder} {n : Nat} (h : Serder.sn E e = .ok n) : n < 2 ^ 128 := by
  have : ∃ o, e.ked = .obj o := by
    unfold Serder.sn Serder.sner at h
    obtain ⟨m, h, _⟩ := Res.bind_eq_ok.mp h
    obtain ⟨v, h, _⟩ := Res.bind_eq_ok.mp h
    obtain ⟨o, h, _⟩ := Sadder.index_ok.mp h
    exact ⟨o, h⟩
  obtain ⟨o, ho⟩ := this
  obtain ⟨t, _, h⟩ := ((C60_sn ho).1 n).mp h
  rcases h with ⟨_, rfl⟩ | ⟨_, h⟩
  · decide
  · exact h

theorem sealOf_ok {e : Sadder} {v : Value} : sealOf E e = .ok v ↔ ∃ i n d, Serder.pre e = .ok i ∧ Serder.sn E e = .ok n ∧ e.said E = .ok d ∧ v = .obj (sealEntries i n d) := by
  unfold sealOf
  constructor
  · intro h
    obtain ⟨i, h1, h⟩ := Res.bind_eq_ok.mp h
    obtain ⟨n, h2, h⟩ := Res.bind_eq_ok.mp h
    obtain ⟨m, h3, h⟩ := Res.bind_eq_ok.mp h
    obtain ⟨s, h4, h⟩ := Res.bind_eq_ok.mp h
    obtain ⟨d, h5, h⟩ := Res.bind_eq_ok.mp h
    obtain ⟨m', h6, _, h7⟩ := num_build E (sn_lt h2)
    obtain rfl := Res.ok.inj (h6.symm.trans h3)
    obtain rfl := Res.ok.inj (h7.symm.trans h4)
    exact ⟨i, n, d, h1, h2, h5, (Res.ok.inj h).symm⟩
  · rintro ⟨i, n, d, h1, h2, h3, rfl⟩
    obtain ⟨m, h6, _, h7⟩ := num_build E (sn_lt h2)
    rw [h1, Res.ok_bind, h2, Res.ok_bind, h6, Res.ok_bind, h7, Res.ok_bind, h3, Res.ok_bind]
    rfl

theorem eq_str {w : Value} {t : Str} : Value.eq (.str t) w = true ↔ w = .str t := by
  cases w with
  | str s => simp only [Value.eq, beq_iff_eq, Value.str.injEq]; exact eq_comm
  | _ => simp [Value.eq]

theorem eq_seal {w : Value} {i d : Str} {n : Nat} : Value.eq (.obj (sealEntries i n d)) w = true ↔
    ∃ o, w = .obj o ∧ o.length = 3 ∧ o.lookup (lit "i") = some (.str i) ∧ o.lookup (lit "s") = some (.str (hexStr n)) ∧ o.lookup (lit "d") = some (.str d) := by
  constructor
  · intro h
    cases w with
    | obj o =>
      simp only [Value.eq, Bool.and_eq_true, beq_iff_eq] at h
      obtain ⟨h1, h2⟩ := h
      rw [eqFields_iff] at h2
      obtain ⟨_, a1, b1⟩ := h2 (lit "i") (.str i) (by simp [sealEntries])
      obtain ⟨_, a2, b2⟩ := h2 (lit "s") (.str (hexStr n)) (by simp [sealEntries])
      obtain ⟨_, a3, b3⟩ := h2 (lit "d") (.str d) (by simp [sealEntries])
      rw [eq_str] at b1 b2 b3
      subst b1; subst b2; subst b3
      exact ⟨o, rfl, h1.symm, a1, a2, a3⟩
    | _ => simp [Value.eq] at h
  · rintro ⟨o, rfl, h1, h2, h3, h4⟩
    simp only [Value.eq, Bool.and_eq_true, beq_iff_eq]
    refine ⟨h1.symm, eqFields_iff.mpr fun k v hm => ?_⟩
    simp only [sealEntries, List.mem_cons, Prod.mk.injEq, List.not_mem_nil, or_false] at hm
    rcases hm with ⟨rfl, rfl⟩ | ⟨rfl, rfl⟩ | ⟨rfl, rfl⟩
    · exact ⟨_, h2, eq_str.mpr rfl⟩
    · exact ⟨_, h3, eq_str.mpr rfl⟩
    · exact ⟨_, h4, eq_str.mpr rfl⟩

theorem carries_iff {b : Sadder} {v : Value} : carries b v = true ↔ ∃ a, b.ked.index (lit "a") = .ok (.arr a) ∧ ∃ w ∈ a, v.eq w = true := by
  unfold carries
  cases hk : b.ked with
  | obj o =>
    simp only [Sadder.index_ok, Value.obj.injEq, exists_eq_left']
    cases hl : o.lookup (lit "a") with
    | none => simp
    | some x => cases x <;> simp [List.any_eq_true]
  | _ => simp [Value.index]

/-- What a carried seal is. -/
theorem carries_seal {b e : Sadder} {v : Value} (hv : sealOf E e = .ok v) : carries b v = true ↔ Seals E b e := by
  obtain ⟨i, n, d, h1, h2, h3, rfl⟩ := sealOf_ok.mp hv
  rw [carries_iff]
  constructor
  · rintro ⟨a, ha, w, hw, he⟩
    obtain ⟨o, rfl, h⟩ := eq_seal.mp he
    exact ⟨i, n, d, a, o, h1, h2, h3, ha, hw, h⟩
  · rintro ⟨i', n', d', a, o, g1, g2, g3, ha, hw, h⟩
    obtain rfl := Res.ok.inj (g1.symm.trans h1)
    obtain rfl := Res.ok.inj (g2.symm.trans h2)
    obtain rfl := Res.ok.inj (g3.symm.trans h3)
    exact ⟨a, ha, _, hw, eq_seal.mpr ⟨o, rfl, h⟩⟩

theorem seal_anchors (F : Str → Option Str) {i d : Str} (hi : Short i) (hd : Short d) {n : Nat} (hn : n < 2 ^ 128) : Anchors F [.obj (sealEntries i n d)] where
  ordinary := by
    intro v hv
    rw [List.mem_singleton] at hv
    subst hv
    refine ordinary_obj (n := 124) (fun e he => ?_) (by simp only [sealEntries, List.map_cons, List.map_nil]; decide +kernel)
    simp only [sealEntries, List.mem_cons, List.not_mem_nil, or_false] at he
    rcases he with rfl | rfl | rfl
    · exact ⟨(by decide +kernel : utf8Valid (lit "i") = true), ordinary_str F _ (utf8Valid_ascii hi.2.2)⟩
    · exact ⟨(by decide +kernel : utf8Valid (lit "s") = true), ordinary_str F _ (utf8Valid_ascii (hexStr_ascii n))⟩
    · exact ⟨(by decide +kernel : utf8Valid (lit "d") = true), ordinary_str F _ (utf8Valid_ascii hd.2.2)⟩
  small := by
    have s1 := jsonStr_le i
    have s2 := jsonStr_le d
    have s3 := jsonStr_le (hexStr n)
    have s4 : (hexStr n).length ≤ 32 := (hexStr_length_le _ 32 (by decide)).mpr (Nat.lt_of_lt_of_eq hn (by decide))
    have s5 := hi.1
    have s6 := hd.1
    have k1 := jsonStr_le (lit "i")
    have k2 := jsonStr_le (lit "s")
    have k3 := jsonStr_le (lit "d")
    have l1 : (lit "i").length = 1 := rfl
    have l2 : (lit "s").length = 1 := rfl
    have l3 : (lit "d").length = 1 := rfl
    simp only [sealEntries, Value.toJson, elemsJson, fieldsJson, List.length_cons, List.length_append, List.length_nil]
    omega

/-- Every event of a life is the latest of an earlier life. -/
theorem life_at {history : List Sadder} {now next : List Signer} {stream : Str} (h : Life E F H C history now next stream) {x : Sadder} (hx : x ∈ history) :
    ∃ earlier n m s, Life E F H C (x :: earlier) n m s ∧ (x :: earlier).length ≤ history.length := by
  induction h with
  | founded hf hs hp hl he hm =>
    rw [List.mem_singleton] at hx
    subst hx
    exact ⟨_, _, _, _, .founded hf hs hp hl he hm, Nat.le_refl _⟩
  | rotated before hne hf hlong hs hp hl he hm ih =>
    cases hx with
    | head => exact ⟨_, _, _, _, .rotated before hne hf hlong hs hp hl he hm, Nat.le_refl _⟩
    | tail _ hx => obtain ⟨a, b, c, d, h1, h2⟩ := ih hx; exact ⟨a, b, c, d, h1, Nat.le_succ_of_le h2⟩
  | anchored before hd hlong hs hp hl he hm ih =>
    cases hx with
    | head => exact ⟨_, _, _, _, .anchored before hd hlong hs hp hl he hm, Nat.le_refl _⟩
    | tail _ hx => obtain ⟨a, b, c, d, h1, h2⟩ := ih hx; exact ⟨a, b, c, d, h1, Nat.le_succ_of_le h2⟩

/-- Every event of a life has a seal, and it can be anchored. -/
theorem life_sealed {history : List Sadder} {now next : List Signer} {stream : Str} (h : Life E F H C history now next stream) {x : Sadder} (hx : x ∈ history) :
    ∃ v, sealOf E x = .ok v ∧ Anchors F [v] := by
  obtain ⟨earlier, n, m, s, hl, _⟩ := life_at h hx
  obtain ⟨e, earlier', i, heq, hi, _⟩ := life_head hl
  injection heq with h1 h2
  subst h1
  subst h2
  obtain ⟨p, hp, shp⟩ := hi.latest.said
  exact ⟨_, sealOf_ok.mpr ⟨i, _, p, hi.latest.pre, hi.latest.sn, hp, rfl⟩, seal_anchors F hi.latest.short shp (sn_lt hi.latest.sn)⟩

theorem half_signers {n : Nat} : (∀ j ∈ List.range ((n + 1) / 2), j < n) ∧ (List.range ((n + 1) / 2)).length = (n + 1) / 2 ∧ n ≤ 2 * (List.range ((n + 1) / 2)).toFinset.card := by
  refine ⟨fun j hj => ?_, List.length_range, ?_⟩
  · rw [List.mem_range] at hj
    omega
  · rw [List.toFinset_card_of_nodup List.nodup_range, List.length_range]
    omega

/-- The signers in force of a delegator can anchor the seals of some events one after the other. -/
theorem anchor_all {signers next : List Signer} (rnd : Nat → Nat) : ∀ (xs : List Sadder) {boss : List Sadder} {stream : Str}, Life E F H C boss signers next stream →
    (∀ x ∈ xs, ∃ v, sealOf E x = .ok v ∧ Anchors F [v]) → boss.length + xs.length ≤ 2 ^ 128 →
    ∃ more m, Life E F H C (more ++ boss) signers next (stream ++ m) ∧ more.length = xs.length ∧ (∀ b ∈ more, Serder.est b = .ok false) ∧ ∀ x ∈ xs, ∃ b ∈ more, Seals E b x
  | [], boss, stream, h, _, _ => ⟨[], [], by simpa using h, rfl, by simp, by simp⟩
  | x :: xs, boss, stream, h, hx, hlen => by
    obtain ⟨v, hv, ha⟩ := hx x (by simp)
    obtain ⟨e, earlier, i, rfl, hi, _⟩ := life_head h
    simp only [List.length_cons] at hlen
    obtain ⟨s, _, _, _, _, _, _, _, h4, h5, hj⟩ := C115_anchors h ha (by simp only [List.length_cons]; omega)
    have few : signers.length ≤ 4096 := by
      obtain ⟨_, _, _, _, _, hst⟩ := hi.stands
      exact hst.few
    obtain ⟨g1, g2, g3⟩ := half_signers (n := signers.length)
    obtain ⟨m, _, _, hl⟩ := hj rnd (List.range ((signers.length + 1) / 2)) g1 (by rw [g2]; omega)
    have hl := hl g3
    obtain ⟨more, m', hl', hm, he, hs⟩ := anchor_all rnd xs hl (fun y hy => hx y (by simp [hy])) (by simp only [List.length_cons]; omega)
    have hest : Serder.est s = .ok false := by
      rw [Serder.est, h5, Res.ok_bind, Sadder.toStr_ok.mpr rfl, Res.ok_bind]
      decide +kernel
    refine ⟨more ++ [s], m ++ m', by simpa [List.append_assoc] using hl', by simp [hm], ?_, ?_⟩
    · intro b hb
      rcases List.mem_append.mp hb with hb | hb
      · exact he b hb
      · rw [List.mem_singleton] at hb; subst hb; exact hest
    · intro y hy
      cases hy with
      | head =>
        refine ⟨s, by simp, (carries_seal hv).mp (carries_iff.mpr ⟨[v], h4, v, by simp, ?_⟩)⟩
        obtain ⟨i', n, d, _, _, _, rfl⟩ := sealOf_ok.mp hv
        exact eq_seal.mpr ⟨_, rfl, rfl, rfl, rfl, rfl⟩
      | tail _ hy =>
        obtain ⟨b, hb, hs⟩ := hs y hy
        exact ⟨b, by simp [hb], hs⟩

/-! ## The kinds of the events of a life -/

/-- The first event of a life founds it: with a delegator it shows him and is a delegated inception, without one it is an ordinary inception. -/
theorem founded_kind {signers next ws : List Signer} {delegator : Option Str} (h : Founders E C signers next ws delegator) {s : Sadder} (hs : found E F H signers next ws delegator = .ok s) :
    ∃ o, s.ked = .obj o ∧ o.lookup (lit "t") = some (.str (if delegator.isNone then lit "icp" else lit "dip")) ∧ o.lookup (lit "di") = delegator.map .str ∧
      o.lookup (lit "a") = some (.arr []) := by
  obtain ⟨_, _, _, s', _, _, _, _, h1, _, hi⟩ := found_parts h F H
  obtain rfl := Res.ok.inj (h1.symm.trans hs)
  obtain ⟨_, _, _, _, _, _, hked, _⟩ := C108_event hi
  refine ⟨_, hked, by cases delegator <;> rfl, by cases delegator <;> rfl, by cases delegator <;> rfl⟩

theorem life_first {history : List Sadder} {now next : List Signer} {stream : Str} (h : Life E F H C history now next stream) :
    ∃ f o delegator, history.getLast? = some f ∧ f.ked = .obj o ∧ o.lookup (lit "t") = some (.str (if (delegator : Option Str).isNone then lit "icp" else lit "dip")) ∧
      o.lookup (lit "di") = delegator.map .str := by
  induction h with
  | founded hf hs hp hl he hm =>
    obtain ⟨o, h1, h2, h3, _⟩ := founded_kind hf hs
    exact ⟨_, o, _, rfl, h1, h2, h3⟩
  | rotated before hne hf hlong hs hp hl he hm ih =>
    obtain ⟨f, o, d, h1, h2⟩ := ih
    exact ⟨f, o, d, by rw [List.getLast?_cons_cons]; exact h1, h2⟩
  | anchored before hd hlong hs hp hl he hm ih =>
    obtain ⟨f, o, d, h1, h2⟩ := ih
    exact ⟨f, o, d, by rw [List.getLast?_cons_cons]; exact h1, h2⟩

theorem rotate_kind {history : List Sadder} {signers next : List Signer} {s : Sadder} (h : rotate E F H history signers next = .ok s) :
    ∃ est t, standing history = .ok est ∧ est.ked.index (lit "t") = .ok (.str t) ∧ s.ked.index (lit "t") = .ok (.str (if t = lit "dip" ∨ t = lit "drt" then lit "drt" else lit "rot")) := by
  unfold rotate at h
  cases history with
  | nil => cases h
  | cons event earlier =>
    dsimp only at h
    obtain ⟨i, _, h⟩ := Res.bind_eq_ok.mp h
    obtain ⟨n, _, h⟩ := Res.bind_eq_ok.mp h
    obtain ⟨p, _, h⟩ := Res.bind_eq_ok.mp h
    obtain ⟨est, h1, h⟩ := Res.bind_eq_ok.mp h
    obtain ⟨tv, h2, h⟩ := Res.bind_eq_ok.mp h
    obtain ⟨t, h3, h⟩ := Res.bind_eq_ok.mp h
    obtain ⟨_, _, h⟩ := Res.bind_eq_ok.mp h
    obtain ⟨sn, _, h⟩ := Res.bind_eq_ok.mp h
    obtain ⟨keys, _, h⟩ := Res.bind_eq_ok.mp h
    obtain ⟨ndigs, _, h⟩ := Res.bind_eq_ok.mp h
    obtain ⟨kt, _, h⟩ := Res.bind_eq_ok.mp h
    obtain ⟨nt, _, h⟩ := Res.bind_eq_ok.mp h
    obtain ⟨vs, hvs, h⟩ := Res.bind_eq_ok.mp h
    obtain ⟨⟨m, ked⟩, hsd, h⟩ := Res.bind_eq_ok.mp h
    have hvs' : versify none none none none = .ok (lit "KERI10JSON000000_") := by decide +kernel
    have hvs := Res.ok.inj (hvs.symm.trans hvs')
    rw [hvs] at hsd
    have hvt : VersionText (lit "KERI10JSON000000_") (lit "KERI") 1 0 (lit "JSON") 0 := sample_text (by decide +kernel)
    obtain ⟨s', hnew, _, hked, _⟩ := C45_saidified_serder (F := F) hsd hvt
    have hs := Res.ok.inj (hnew.symm.trans h)
    rw [hs] at hked
    obtain ⟨_, _, _, _, _, _, _, hrot, _⟩ := rotation_saidified hsd
    rw [hrot] at hked
    exact ⟨est, t, h1, by rw [h2, Sadder.toStr_ok.mp h3], by rw [hked]; rfl⟩

/-- The kinds of the events of a life: those of the first event and of all later ones. -/
theorem life_kinds {history : List Sadder} {now next : List Signer} {stream : Str} (h : Life E F H C history now next stream) :
    ∃ (f : Sadder) (dlg : Bool), history.getLast? = some f ∧ f.ked.index (lit "t") = .ok (.str (if dlg then lit "dip" else lit "icp")) ∧
      ∀ e ∈ history, ∃ t, e.ked.index (lit "t") = .ok (.str t) ∧ (t = lit "ixn" ∨ t ∈ if dlg then [lit "dip", lit "drt"] else [lit "icp", lit "rot"]) := by
  have standing_mem : ∀ {l : List Sadder} {x : Sadder}, standing l = .ok x → x ∈ l ∧ Serder.est x = .ok true := by
    intro l
    induction l with
    | nil => intro x hx; cases hx
    | cons e earlier ih =>
      intro x hx
      rw [standing] at hx
      obtain ⟨b, hb, hx⟩ := Res.bind_eq_ok.mp hx
      cases b with
      | true => rw [if_pos rfl] at hx; obtain rfl := Res.ok.inj hx; exact ⟨by simp, hb⟩
      | false => rw [if_neg (by simp)] at hx; exact ⟨List.mem_cons_of_mem _ (ih hx).1, (ih hx).2⟩
  induction h with
  | @founded signers next witnesses delegator s rnd positions m hf hs hp hl he hm =>
    obtain ⟨o, h1, h2, h3, _⟩ := founded_kind hf hs
    refine ⟨s, !delegator.isNone, rfl, ?_, ?_⟩
    · rw [Sadder.index_ok]; exact ⟨o, h1, by rw [h2]; cases delegator <;> rfl⟩
    · intro e he
      rw [List.mem_singleton] at he
      subst he
      exact ⟨_, Sadder.index_ok.mpr ⟨o, h1, h2⟩, .inr (by cases delegator <;> simp)⟩
  | @rotated e earlier now signers next stream s rnd positions m before hne hf hlong hs hp hl he hm ih =>
    obtain ⟨f, dlg, h1, h2, h3⟩ := ih
    refine ⟨f, dlg, by rw [List.getLast?_cons_cons]; exact h1, h2, fun x hx => ?_⟩
    cases hx with
    | head =>
      obtain ⟨est, t, g1, g2, g3⟩ := rotate_kind hs
      obtain ⟨gm, ge⟩ := standing_mem g1
      obtain ⟨t', g4, g5⟩ := h3 est gm
      have g6 := Res.ok.inj (g2.symm.trans g4)
      simp only [Value.str.injEq] at g6
      subst g6
      rcases g5 with rfl | g5
      · rw [Serder.est, g2, Res.ok_bind, Sadder.toStr_ok.mpr rfl, Res.ok_bind] at ge
        exact absurd ge (by decide +kernel)
      · refine ⟨_, g3, .inr ?_⟩
        cases dlg with
        | true =>
          simp only [if_true, List.mem_cons, List.not_mem_nil, or_false] at g5 ⊢
          rw [if_pos g5]
          exact .inr rfl
        | false =>
          simp only [Bool.false_eq_true, if_false, List.mem_cons, List.not_mem_nil, or_false] at g5 ⊢
          rw [if_neg (by rcases g5 with rfl | rfl <;> decide +kernel)]
          exact .inr rfl
    | tail _ hx => exact h3 x hx
  | @anchored e earlier signers next stream data s rnd positions m before hd hlong hs hp hl he hm ih =>
    obtain ⟨f, dlg, h1, h2, h3⟩ := ih
    refine ⟨f, dlg, by rw [List.getLast?_cons_cons]; exact h1, h2, fun x hx => ?_⟩
    cases hx with
    | head =>
      obtain ⟨s', _, _, hr, _, _, _, _, _, ht, _⟩ := C115_anchors before hd hlong
      obtain rfl := Res.ok.inj (hr.symm.trans hs)
      exact ⟨_, ht, .inl rfl⟩
    | tail _ hx => exact h3 x hx

/-! ## What the receiver does -/

theorem approved_iff {boss : List Sadder} {e : Sadder} : approved E boss e = .ok true ↔
    (∃ t, e.ked.index (lit "t") = .ok (.str t)) ∧ (Delegated e → ∃ b ∈ boss, Seals E b e) := by
  have hd : ∀ t, e.ked.index (lit "t") = .ok (.str t) → (Delegated e ↔ t = lit "dip" ∨ t = lit "drt") := by
    intro t ht
    unfold Delegated
    rw [ht]
    simp
  unfold approved
  constructor
  · intro h
    obtain ⟨tv, h1, h⟩ := Res.bind_eq_ok.mp h
    obtain ⟨t, h2, h⟩ := Res.bind_eq_ok.mp h
    rw [Sadder.toStr_ok.mp h2] at h1
    refine ⟨⟨t, h1⟩, fun hdel => ?_⟩
    rw [if_pos ((hd t h1).mp hdel)] at h
    obtain ⟨v, hv, h⟩ := Res.bind_eq_ok.mp h
    obtain ⟨b, hb, hc⟩ := List.any_eq_true.mp (Res.ok.inj h)
    exact ⟨b, hb, (carries_seal hv).mp hc⟩
  · rintro ⟨⟨t, h1⟩, h⟩
    rw [h1, Res.ok_bind, Sadder.toStr_ok.mpr rfl, Res.ok_bind]
    by_cases hdel : t = lit "dip" ∨ t = lit "drt"
    · rw [if_pos hdel]
      obtain ⟨b, hb, hs⟩ := h ((hd t h1).mpr hdel)
      obtain ⟨i, n, d, a, o, g1, g2, g3, _⟩ := id hs
      have hv := sealOf_ok.mpr ⟨i, n, d, g1, g2, g3, rfl⟩
      rw [hv, Res.ok_bind, List.any_eq_true.mpr ⟨b, hb, (carries_seal hv).mpr hs⟩]
    · rw [if_neg hdel]

theorem allApproved_iff {boss : List Sadder} : ∀ {mine : List Sadder}, allApproved E boss mine = .ok true ↔ ∀ e ∈ mine, approved E boss e = .ok true
  | [] => by simp [allApproved]
  | e :: earlier => by
    unfold allApproved
    constructor
    · intro h
      obtain ⟨a, h1, h⟩ := Res.bind_eq_ok.mp h
      obtain ⟨b, h2, h⟩ := Res.bind_eq_ok.mp h
      have h := Res.ok.inj h
      rw [Bool.and_eq_true] at h
      obtain ⟨rfl, rfl⟩ := h
      intro x hx
      cases hx with
      | head => exact h1
      | tail _ hx => exact allApproved_iff.mp h2 x hx
    · intro h
      rw [h e (by simp), Res.ok_bind, allApproved_iff.mpr (fun x hx => h x (by simp [hx])), Res.ok_bind]
      rfl

theorem named_iff {boss mine : List Sadder} : named boss mine = .ok true ↔
    ∃ b f i, boss.getLast? = some b ∧ mine.getLast? = some f ∧ Serder.pre b = .ok i ∧ f.ked.index (lit "di") = .ok (.str i) := by
  unfold named
  cases hb : boss.getLast? with
  | none => simp
  | some b =>
    cases hf : mine.getLast? with
    | none => simp
    | some f =>
      dsimp only
      constructor
      · intro h
        obtain ⟨i, h1, h⟩ := Res.bind_eq_ok.mp h
        obtain ⟨map, h2, h⟩ := Res.bind_eq_ok.mp h
        split at h
        · obtain ⟨dv, h3, h⟩ := Res.bind_eq_ok.mp h
          obtain ⟨di, h4, h⟩ := Res.bind_eq_ok.mp h
          obtain rfl := Sadder.toStr_ok.mp h4
          obtain rfl := of_decide_eq_true (Res.ok.inj h)
          exact ⟨b, f, _, rfl, rfl, h1, h3⟩
        · cases h
      · rintro ⟨b', f', i, hb, hf', h1, h2⟩
        cases hb
        cases hf'
        obtain ⟨o, ho, hl⟩ := Sadder.index_ok.mp h2
        rw [h1, Res.ok_bind, show f.ked.toMap = .ok o by rw [ho]; rfl, Res.ok_bind, if_pos, h2, Res.ok_bind, Sadder.toStr_ok.mpr rfl, Res.ok_bind]
        · simp
        · exact hasKey_some hl

/-! ## The property -/

/-- C119. The first event of an identifier that is founded with a delegator names him and is a delegated inception. -/
theorem C119_named {signers next ws : List Signer} {x : Str} (h : Founders E C signers next ws (some x)) {s : Sadder} (hs : found E F H signers next ws (some x) = .ok s) :
    s.ked.index (lit "di") = .ok (.str x) ∧ s.ked.index (lit "t") = .ok (.str (lit "dip")) := by
  obtain ⟨o, h1, h2, h3, _⟩ := founded_kind h hs
  exact ⟨Sadder.index_ok.mpr ⟨o, h1, h3⟩, Sadder.index_ok.mpr ⟨o, h1, h2⟩⟩

/-- C119. If the first event of a life is a delegated inception, exactly the events that set keys are delegated ones; otherwise none is. -/
theorem C119_kinds {history : List Sadder} {now next : List Signer} {stream : Str} (h : Life E F H C history now next stream) :
    ∃ f, history.getLast? = some f ∧
      (f.ked.index (lit "t") = .ok (.str (lit "dip")) → ∀ e ∈ history, (Delegated e ↔ Serder.est e = .ok true)) ∧
      (f.ked.index (lit "t") ≠ .ok (.str (lit "dip")) → ∀ e ∈ history, ¬ Delegated e) := by
  obtain ⟨f, dlg, h1, h2, h3⟩ := life_kinds h
  have est : ∀ {e : Sadder} {t : Str}, e.ked.index (lit "t") = .ok (.str t) → Serder.est e = .ok (establishmentIlks.contains t) := by
    intro e t ht
    rw [Serder.est, ht, Res.ok_bind, Sadder.toStr_ok.mpr rfl, Res.ok_bind]
    rfl
  have del : ∀ {e : Sadder} {t : Str}, e.ked.index (lit "t") = .ok (.str t) → (Delegated e ↔ t = lit "dip" ∨ t = lit "drt") := by
    intro e t ht
    unfold Delegated
    rw [ht]
    simp
  refine ⟨f, h1, fun hf e he => ?_, fun hf e he => ?_⟩
  · obtain ⟨t, ht, hc⟩ := h3 e he
    cases dlg with
    | false =>
      rw [h2] at hf
      simp only [Bool.false_eq_true, if_false, Res.ok.injEq, Value.str.injEq] at hf
      exact absurd hf (by decide +kernel)
    | true =>
      rw [est ht, del ht]
      simp only [if_true, List.mem_cons, List.not_mem_nil, or_false] at hc
      rcases hc with rfl | rfl | rfl <;> decide +kernel
  · obtain ⟨t, ht, hc⟩ := h3 e he
    cases dlg with
    | true => exact absurd h2 hf
    | false =>
      rw [del ht]
      simp only [Bool.false_eq_true, if_false, List.mem_cons, List.not_mem_nil, or_false] at hc
      rcases hc with rfl | rfl | rfl <;> decide +kernel

/-- C119. What a receiver has accepted, from any two streams, names the identifier of the delegator, and each of its delegated events has its seal among the data of one of his events. -/
theorem C119_sound {n m : Nat} {bossStream stream : List UInt8} {boss mine : List Sadder} (h : receiveDelegated E F H C n m bossStream stream = .ok (boss, mine)) :
    (∃ left, receive E F H C n bossStream = .ok (boss, left)) ∧ (∃ left, receive E F H C m stream = .ok (mine, left)) ∧
    (∃ b f i, boss.getLast? = some b ∧ mine.getLast? = some f ∧ Serder.pre b = .ok i ∧ f.ked.index (lit "di") = .ok (.str i)) ∧
    ∀ e ∈ mine, Delegated e → ∃ b ∈ boss, Seals E b e := by
  unfold receiveDelegated at h
  obtain ⟨⟨boss', l1⟩, h1, h⟩ := Res.bind_eq_ok.mp h
  obtain ⟨⟨mine', l2⟩, h2, h⟩ := Res.bind_eq_ok.mp h
  obtain ⟨d, h3, h⟩ := Res.bind_eq_ok.mp h
  cases d with
  | false => cases h
  | true =>
    rw [if_pos rfl] at h
    have h := Res.ok.inj h
    simp only [Prod.mk.injEq] at h
    obtain ⟨rfl, rfl⟩ := h
    unfold delegation at h3
    obtain ⟨k, h4, h3⟩ := Res.bind_eq_ok.mp h3
    cases k with
    | false => cases h3
    | true =>
      rw [if_pos rfl] at h3
      exact ⟨⟨l1, h1⟩, ⟨l2, h2⟩, named_iff.mp h4, fun e he => (approved_iff.mp (allApproved_iff.mp h3 e he)).2⟩

/-- C119. Two lives are accepted as those of a delegator and a delegated identifier exactly if the first event of the one names the identifier of the other and each of its delegated events is sealed
there; otherwise they are refused with an error. -/
theorem C119_judged {boss mine : List Sadder} {bnow bnext now next : List Signer} {bstream stream : Str} (hb : Life E F H C boss bnow bnext bstream) (hm : Life E F H C mine now next stream) :
    (((∃ b f i, boss.getLast? = some b ∧ mine.getLast? = some f ∧ Serder.pre b = .ok i ∧ f.ked.index (lit "di") = .ok (.str i)) ∧ ∀ e ∈ mine, Delegated e → ∃ b ∈ boss, Seals E b e) →
      receiveDelegated E F H C (boss.length - 1) (mine.length - 1) bstream stream = .ok (boss, mine)) ∧
    (¬ ((∃ b f i, boss.getLast? = some b ∧ mine.getLast? = some f ∧ Serder.pre b = .ok i ∧ f.ked.index (lit "di") = .ok (.str i)) ∧ ∀ e ∈ mine, Delegated e → ∃ b ∈ boss, Seals E b e) →
      receiveDelegated E F H C (boss.length - 1) (mine.length - 1) bstream stream = .err .validation) := by
  have r1 := C112_replay hb (left := []) rfl (by simp)
  have r2 := C112_replay hm (left := []) rfl (by simp)
  rw [List.append_nil] at r1 r2
  obtain ⟨f, _, hl, _, hk⟩ := life_kinds hm
  have ilk : ∀ e ∈ mine, ∃ t, e.ked.index (lit "t") = .ok (.str t) := fun e he => let ⟨t, ht, _⟩ := hk e he; ⟨t, ht⟩
  have total : ∃ k, delegation E boss mine = .ok k := by
    obtain ⟨b, earlier, i, rfl, hi, hall⟩ := life_head hb
    obtain ⟨f', o, dlg, g1, g2, _, g3⟩ := life_first hm
    have hn : ∃ k, named (b :: earlier) mine = .ok k := by
      unfold named
      rw [g1, List.getLast?_eq_some_getLast (by simp : b :: earlier ≠ [])]
      dsimp only
      rw [hall _ (List.getLast_mem _), Res.ok_bind, show f'.ked.toMap = .ok o by rw [g2]; rfl, Res.ok_bind]
      cases dlg with
      | none => rw [if_neg (by rw [hasKey_none g3]; simp)]; exact ⟨_, rfl⟩
      | some x => rw [if_pos (hasKey_some g3), Sadder.index_ok.mpr ⟨o, g2, g3⟩, Res.ok_bind, Sadder.toStr_ok.mpr rfl, Res.ok_bind]; exact ⟨_, rfl⟩
    have ha : ∀ (l : List Sadder), (∀ e ∈ l, e ∈ mine) → ∃ k, allApproved E (b :: earlier) l = .ok k := by
      intro l
      induction l with
      | nil => intro _; exact ⟨_, rfl⟩
      | cons e l ih =>
        intro hl
        obtain ⟨k, hk⟩ := ih (fun x hx => hl x (by simp [hx]))
        obtain ⟨t, ht⟩ := ilk e (hl e (by simp))
        obtain ⟨v, hv, _⟩ := life_sealed hm (hl e (by simp))
        have : ∃ a, approved E (b :: earlier) e = .ok a := by
          unfold approved
          rw [ht, Res.ok_bind, Sadder.toStr_ok.mpr rfl, Res.ok_bind]
          split
          · rw [hv]; exact ⟨_, rfl⟩
          · exact ⟨_, rfl⟩
        obtain ⟨a, ha⟩ := this
        exact ⟨a && k, by unfold allApproved; rw [ha, Res.ok_bind, hk]; rfl⟩
    obtain ⟨k, hk⟩ := hn
    unfold delegation
    rw [hk, Res.ok_bind]
    cases k with
    | true => rw [if_pos rfl]; exact ha mine (fun _ h => h)
    | false => exact ⟨_, rfl⟩
  have run : receiveDelegated E F H C (boss.length - 1) (mine.length - 1) bstream stream = (do if ← delegation E boss mine then .ok (boss, mine) else .err .validation) := by
    unfold receiveDelegated
    rw [r1, Res.ok_bind]
    dsimp only
    rw [r2, Res.ok_bind]
  have ok_iff : delegation E boss mine = .ok true ↔
      ((∃ b f i, boss.getLast? = some b ∧ mine.getLast? = some f ∧ Serder.pre b = .ok i ∧ f.ked.index (lit "di") = .ok (.str i)) ∧ ∀ e ∈ mine, Delegated e → ∃ b ∈ boss, Seals E b e) := by
    unfold delegation
    constructor
    · intro h
      obtain ⟨k, h4, h3⟩ := Res.bind_eq_ok.mp h
      cases k with
      | false => cases h3
      | true => rw [if_pos rfl] at h3; exact ⟨named_iff.mp h4, fun e he => (approved_iff.mp (allApproved_iff.mp h3 e he)).2⟩
    · rintro ⟨h1, h2⟩
      rw [named_iff.mpr h1, Res.ok_bind, if_pos rfl]
      exact allApproved_iff.mpr fun e he => approved_iff.mpr ⟨ilk e he, h2 e he⟩
  obtain ⟨k, hk⟩ := total
  rw [run]
  constructor
  · intro h
    rw [ok_iff.mpr h, Res.ok_bind, if_pos rfl]
  · intro h
    cases k with
    | true => exact absurd (ok_iff.mp hk) h
    | false => rw [hk, Res.ok_bind, if_neg (by simp)]

/-- C119. The signers in force of a delegator can always approve an identifier that names his: with one interaction for each of its events at the end of his history, both are accepted. -/
theorem C119_delegates {boss mine : List Sadder} {bnow bnext now next : List Signer} {bstream stream : Str} (hb : Life E F H C boss bnow bnext bstream) (hm : Life E F H C mine now next stream)
    {b f : Sadder} {i : Str} (h1 : boss.getLast? = some b) (h2 : Serder.pre b = .ok i) (h3 : mine.getLast? = some f) (h4 : f.ked.index (lit "di") = .ok (.str i))
    (hlen : boss.length + mine.length ≤ 2 ^ 128) (rnd : Nat → Nat) :
    ∃ more m, Life E F H C (more ++ boss) bnow bnext (bstream ++ m) ∧ more.length = mine.length ∧ (∀ x ∈ more, Serder.est x = .ok false) ∧
      receiveDelegated E F H C ((more ++ boss).length - 1) (mine.length - 1) (bstream ++ m) stream = .ok (more ++ boss, mine) := by
  obtain ⟨more, m, hl, hlm, he, hs⟩ := anchor_all rnd mine hb (fun x hx => life_sealed hm hx) hlen
  refine ⟨more, m, hl, hlm, he, (C119_judged hl hm).1 ⟨?_, fun e hem _ => ?_⟩⟩
  · exact ⟨b, f, i, by rw [List.getLast?_append, h1]; rfl, h3, h2, h4⟩
  · obtain ⟨x, hx, hsx⟩ := hs e hem
    exact ⟨x, List.mem_append_left _ hx, hsx⟩

/-- C119. Nobody else can approve: whatever bytes are accepted as the next event of the delegator, if they make a delegated event approved that was not, then they carry its seal, and at least half
of the signers of the delegator, and not none, have voted for these bytes: of those in force, or, if the event sets keys, of those committed to (or a digest has a collision with one of their keys). -/
theorem C119_control {boss : List Sadder} {now next : List Signer} {stream : Str} (h : Life E F H C boss now next stream) {x : Sadder} (hd : Delegated x) (hno : approved E boss x ≠ .ok true)
    {bytes : List UInt8} {s : Sadder} {left : Str} (hr : receiveNext E F H C boss bytes = .ok (s, left)) (hap : approved E (s :: boss) x = .ok true) :
    Seals E s x ∧
    ((Serder.est s = .ok true ∧ ∃ voters : List Nat, voters.Nodup ∧ 0 < voters.length ∧ next.length ≤ 2 * voters.length ∧
        ∀ j ∈ voters, ∃ g, next[j]? = some g ∧ (Voted E C g s bytes ∨ KeyCollides E H g)) ∨
     (Serder.est s = .ok false ∧ ∃ voters : List Nat, voters.Nodup ∧ 0 < voters.length ∧ now.length ≤ 2 * voters.length ∧
        ∀ j ∈ voters, ∃ g, now[j]? = some g ∧ Voted E C g s bytes)) := by
  obtain ⟨ht, hs⟩ := approved_iff.mp hap
  obtain ⟨b, hb, hsb⟩ := hs hd
  refine ⟨?_, (C116_control h hr).2.2⟩
  cases hb with
  | head => exact hsb
  | tail _ hb => exact absurd (approved_iff.mpr ⟨ht, fun _ => ⟨b, hb, hsb⟩⟩) hno

/-- C119. What is approved stays approved as the delegator goes on. -/
theorem C119_stays {boss : List Sadder} {x : Sadder} (h : approved E boss x = .ok true) (more : List Sadder) : approved E (more ++ boss) x = .ok true := by
  obtain ⟨ht, hs⟩ := approved_iff.mp h
  exact approved_iff.mpr ⟨ht, fun hd => let ⟨b, hb, h⟩ := hs hd; ⟨b, List.mem_append_right _ hb, h⟩⟩

/-- C119. A seal is that of one event: two events that are read from bytes, carry the digests of their contents and have the same seal are the same map, or their contents collide. -/
theorem C119_binds {x y : Sadder} {bx byt : List UInt8} (rx : Serder.newWithRaw E F H bx = .ok x) (ry : Serder.newWithRaw E F H byt = .ok y) (px : Plain x.ked) (py : Plain y.ked)
    (vx : Saider.verify E H x.saider x.ked (some true) (some true) none none none = .ok true) (vy : Saider.verify E H y.saider y.ked (some true) (some true) none none none = .ok true)
    {v : Value} (h1 : sealOf E x = .ok v) (h2 : sealOf E y = .ok v) : x.ked = y.ked ∨ ContentsCollide H x y := by
  obtain ⟨i, n, d, _, _, g1, rfl⟩ := sealOf_ok.mp h1
  obtain ⟨j, m, e, _, _, g2, g3⟩ := sealOf_ok.mp h2
  simp only [sealEntries, Value.obj.injEq, List.cons.injEq, Prod.mk.injEq, Value.str.injEq, true_and, and_true] at g3
  refine same_said (event_isSaid rx) (event_isSaid ry) px py vx vy ?_
  rw [g1, g2, g3.2.2]

/-! ## A case -/

/-- A delegator, a delegated identifier that is founded and rotated; without the delegator's approval the two are refused, with two more events of his they are accepted. -/
theorem C119_example : ∃ boss mine bstream stream more m, boss.length = 1 ∧ mine.length = 2 ∧ more.length = 2 ∧ (∀ e ∈ mine, Delegated e) ∧
    receiveDelegated Env.debug (fun _ => none) zeroHash toy 0 1 bstream stream = .err .validation ∧
    receiveDelegated Env.debug (fun _ => none) zeroHash toy 2 1 (bstream ++ m) stream = .ok (more ++ boss, mine) := by
  have fb : Founders Env.debug toy [signerA, signerB] [signerB] [signerB, signerA] none := { C111_example with named := fun x hx => by cases hx }
  obtain ⟨b, bm, g1, _, hb⟩ := C112_starts fb (fun _ => none) zeroHash (fun _ => 5) (positions := [0]) (by simp) (by simp) (by simp)
  obtain ⟨b', _, i, heq, hi, _⟩ := life_head hb
  injection heq with e1 e2
  subst e1
  have fm : Founders Env.debug toy [signerA, signerB] [signerB] [signerB, signerA] (some i) :=
    { C111_example with named := fun x hx => by cases hx; exact ⟨utf8Valid_ascii hi.latest.short.2.2, by have := hi.latest.short.1; omega⟩ }
  obtain ⟨s, m, g2, _, hm⟩ := C112_starts fm (fun _ => none) zeroHash (fun _ => 6) (positions := [1]) (by simp) (by simp) (by simp)
  obtain ⟨r, _, _, _, _, _, _, _, hr⟩ := C112_rotates hm (by simp) example_successors (by simp)
  obtain ⟨rm, _, _, hr⟩ := hr (fun _ => 7) [0] (by simp) (by simp)
  have hr := hr (by simp)
  obtain ⟨k1, k2⟩ := C119_named fm g2
  obtain ⟨f', p1, p2, _⟩ := C119_kinds hr
  have ef : s = f' := by simpa using p1
  subst ef
  have dm := p2 k2
  have de : ∀ e ∈ [r, s], Delegated e := by
    obtain ⟨est, t, q1, q2, q3⟩ := rotate_kind (E := Env.debug) (F := fun _ => none) (H := zeroHash) (history := [s]) (signers := [signerB]) (next := [signerA, signerB]) (s := r) (by assumption)
    have q4 : standing [s] = .ok s := by
      rw [standing, (dm s (by simp)).mp (.inl k2)]
      rfl
    obtain rfl := Res.ok.inj (q4.symm.trans q1)
    have q5 := Res.ok.inj (q2.symm.trans k2)
    simp only [Value.str.injEq] at q5
    subst q5
    intro e he
    simp only [List.mem_cons, List.not_mem_nil, or_false] at he
    rcases he with rfl | rfl
    · exact .inr (by rw [q3, if_pos (.inl rfl)])
    · exact .inl k2
  obtain ⟨more, mm, _, n1, _, n2⟩ := C119_delegates hb hr (f := s) rfl hi.latest.pre rfl k1 (by simp) (fun _ => 9)
  refine ⟨[b], [r, s], _, _, more, mm, rfl, rfl, n1, de, (C119_judged hb hr).2 ?_, ?_⟩
  · rintro ⟨_, h⟩
    obtain ⟨x, hx, hs⟩ := h s (by simp) (de s (by simp))
    rw [List.mem_singleton] at hx
    subst hx
    obtain ⟨_, _, _, a, _, _, _, _, ha, hin, _⟩ := hs
    obtain ⟨ob, h1, _, _, h4⟩ := founded_kind fb g1
    obtain ⟨o', h5, h6⟩ := Sadder.index_ok.mp ha
    rw [h1] at h5
    cases h5
    rw [h4] at h6
    cases h6
    cases hin
  · have : (more ++ [b]).length - 1 = 2 := by rw [List.length_append, n1]; rfl
    rw [this] at n2
    exact n2

end Builder
end Cesride
