import Verif.Props.Signed
import Verif.Props.Diger

/-!
# Property C90: chained histories

The client below is what a user of the library writes to replay a key event log: each event must carry the digest of its own content, name the SAID of
the event before it in `p`, and, when it rotates keys, use exactly the keys that the latest establishment event has committed to in `n`. Its loops are
not library code; everything it calls is. Histories are kept latest event first.
-/

namespace Cesride
open Spec

/-- The key commitments in force: those of the latest establishment event. -/
def commitments (E : Env) (H : Hash) : List Sadder → Res (List Matter)
  | [] => .ok []
  | e :: earlier => do
    if ← Serder.est e then Serder.digers E H e else commitments E H earlier

/-- Whether the keys are the ones committed to, position by position. -/
def keysMatch (E : Env) (H : Hash) : List Matter → List Matter → Res Bool
  | [], [] => .ok true
  | d :: ds, k :: ks => do
    let t ← k.qb64b E
    if ← Diger.verify H d t then keysMatch E H ds ks else .ok false
  | _, _ => .ok false

/-- Whether the event follows on the history: a first event has no prior event, any other names the SAID of the one before. -/
def follows (E : Env) (history : List Sadder) (e : Sadder) : Res Bool := do
  let map ← e.ked.toMap
  match history with
  | [] => .ok (!Value.hasKey map (lit "p"))
  | q :: _ =>
    if Value.hasKey map (lit "p") then do
      let said ← Sadder.said E q
      let v ← e.ked.index (lit "p")
      let t ← v.toStr
      .ok (decide (t = said))
    else .ok false

/-- Whether an event that follows on a history uses the keys committed to, if it sets keys. -/
def rotates (E : Env) (H : Hash) (history : List Sadder) (e : Sadder) : Res Bool :=
  match history with
  | [] => .ok true
  | _ => do
    if ← Serder.est e then do
      let ds ← commitments E H history
      let ks ← Serder.verfers E e
      keysMatch E H ds ks
    else .ok true

/-- Accept one more event, given as bytes. -/
def acceptEvent (E : Env) (F : Str → Option Str) (H : Hash) (history : List Sadder) (bytes : List UInt8) : Res Sadder := do
  let e ← Serder.newWithRaw E F H bytes
  let genuine ← Saider.verify E H e.saider e.ked (some true) (some true) none none none
  let linked ← follows E history e
  let rotated ← rotates E H history e
  if genuine && linked && rotated then .ok e else .err .validation

/-- Accept events one after the other. -/
def replay (E : Env) (F : Str → Option Str) (H : Hash) : List Sadder → List (List UInt8) → Res (List Sadder)
  | history, [] => .ok history
  | history, b :: rest => do
    let e ← acceptEvent E F H history b
    replay E F H (e :: history) rest

/-- The contents of two events, as their SAIDs are computed over them, are different byte strings with the same digest. -/
def ContentsCollide (H : Hash) (x y : Sadder) : Prop :=
  ∃ n ox oy cx cy, x.ked = .obj ox ∧ y.ked = .obj oy ∧ SaidContent n (lit "d") [] ox cx ∧ SaidContent n (lit "d") [] oy cy ∧
    (Value.obj cx).toJson ≠ (Value.obj cy).toJson ∧
    H.digest x.saider.code (Value.obj cx).toJson = H.digest x.saider.code (Value.obj cy).toJson

theorem event_isSaid {E : Env} {F : Str → Option Str} {H : Hash} {bytes : List UInt8} {s : Sadder} (h : Serder.newWithRaw E F H bytes = .ok s) :
    IsSaid E H s.saider := by
  obtain ⟨size, o, m, hm, rfl⟩ := (C82_serder E F H none none bytes none none s).mp h
  obtain ⟨_, _, _, _, t, _, hm, _⟩ := hm
  exact ⟨_, _, _, _, _, _, _, _, _, hm⟩

theorem said_inj {E : Env} {H : Hash} {a b : Matter} (ha : IsSaid E H a) (hb : IsSaid E H b) {t : Str} (h1 : a.qb64 E = .ok t) (h2 : b.qb64 E = .ok t) : a = b := by
  obtain ⟨_, _, _, _, _, _, _, _, _, ha⟩ := ha
  obtain ⟨_, _, _, _, _, _, _, _, _, hb⟩ := hb
  obtain ⟨⟨_, _, _, _, _, hma⟩, _⟩ := Saider.new_matter ha
  obtain ⟨⟨_, _, _, _, _, hmb⟩, _⟩ := Saider.new_matter hb
  obtain ⟨z, wa⟩ := Matter.new_text_wf hma h1
  obtain ⟨y, wb⟩ := Matter.new_text_wf hmb h2
  exact wa.text_inj wb (h1.trans h2.symm)

/-- An association list without repeated keys is determined by its keys and what is found under them. -/
theorem fields_ext : ∀ {a b : List (Str × Value)}, a.map Prod.fst = b.map Prod.fst → (a.map Prod.fst).Nodup → (∀ k, a.lookup k = b.lookup k) → a = b
  | [], [], _, _, _ => rfl
  | [], _ :: _, h, _, _ => by simp at h
  | _ :: _, [], h, _, _ => by simp at h
  | (k, v) :: a, (j, w) :: b, h, hn, hl => by
    simp only [List.map_cons, List.cons.injEq] at h
    obtain ⟨rfl, h⟩ := h
    have hv := hl k
    simp only [List.lookup_cons_self, Option.some.injEq] at hv
    subst hv
    simp only [List.map_cons, List.nodup_cons] at hn
    have hr : a = b := by
      refine fields_ext h hn.2 fun i => ?_
      by_cases hi : i = k
      · subst hi
        rw [lookup_none_iff.mpr hn.1, lookup_none_iff.mpr (by rw [← h]; exact hn.1)]
      · have := hl i
        rw [List.lookup_cons, List.lookup_cons] at this
        rw [show (i == k) = false by simpa using hi] at this
        exact this
    rw [hr]

/-- Two events whose SAIDs verify and have the same text are the same map, or their contents collide. -/
theorem same_said {E : Env} {H : Hash} {x y : Sadder} (hx : IsSaid E H x.saider) (hy : IsSaid E H y.saider) (px : Plain x.ked) (py : Plain y.ked)
    (vx : Saider.verify E H x.saider x.ked (some true) (some true) none none none = .ok true)
    (vy : Saider.verify E H y.saider y.ked (some true) (some true) none none none = .ok true)
    (h : Sadder.said E x = Sadder.said E y) : x.ked = y.ked ∨ ContentsCollide H x y := by
  obtain ⟨ox, cx, t, ex, htx, hcx, rx, verx, fx⟩ := C44_content hx vx
  obtain ⟨oy, cy, u, ey, hty, hcy, ry, very, fy⟩ := C44_content hy vy
  have h : x.saider.qb64 E = y.saider.qb64 E := h
  have e : u = t := Res.ok.inj (hty.symm.trans (h.symm.trans htx))
  subst e
  have em := said_inj hx hy htx hty
  simp only [Option.getD_none, Option.getD_some] at hcx hcy verx very fx fy
  by_cases hj : (Value.obj cx).toJson = (Value.obj cy).toJson
  · left
    have hcc : Value.obj cx = Value.obj cy := C39_injective (saidContent_plain hcx (by rw [← ex]; exact px)) (saidContent_plain hcy (by rw [← ey]; exact py)) hj
    injection hcc with hcc
    subst hcc
    have lx := fx trivial
    have ly := fy trivial
    have mem : ∀ {o : List (Str × Value)}, o.lookup (lit "d") = some (.str u) → lit "d" ∈ o.map Prod.fst := fun h =>
      Saider.hasKey_iff.mp (by rw [Saider.hasKey_eq_isSome, h]; rfl)
    have kx := hcx.keys
    have ky := hcy.keys
    rw [if_pos (mem lx), List.append_nil, List.filter_eq_self.mpr (by simp)] at kx
    rw [if_pos (mem ly), List.append_nil, List.filter_eq_self.mpr (by simp)] at ky
    have hn : (ox.map Prod.fst).Nodup := by rw [ex] at px; exact px.2
    rw [ex, ey]
    congr 1
    refine fields_ext (kx.symm.trans ky) hn fun k => ?_
    by_cases h1 : k = lit "d"
    · rw [h1, lx, ly]
    by_cases h2 : k = lit "v"
    · rw [h2, ← verx trivial (by simp), very trivial (by simp)]
    · rw [← hcx.other k (by simp) h1 h2, hcy.other k (by simp) h1 h2]
  · right
    refine ⟨_, ox, oy, cx, cy, ex, ey, hcx, hcy, hj, ?_⟩
    rw [← rx, em, ← ry]

theorem accept_ok {E : Env} {F : Str → Option Str} {H : Hash} {history : List Sadder} {bytes : List UInt8} {e : Sadder} :
    acceptEvent E F H history bytes = .ok e ↔ Serder.newWithRaw E F H bytes = .ok e ∧
      Saider.verify E H e.saider e.ked (some true) (some true) none none none = .ok true ∧ follows E history e = .ok true ∧ rotates E H history e = .ok true := by
  unfold acceptEvent
  constructor
  · intro h
    obtain ⟨e', h1, h⟩ := Res.bind_eq_ok.mp h
    obtain ⟨g, h2, h⟩ := Res.bind_eq_ok.mp h
    obtain ⟨l, h3, h⟩ := Res.bind_eq_ok.mp h
    obtain ⟨r, h4, h⟩ := Res.bind_eq_ok.mp h
    split at h
    · rename_i hc
      have := Res.ok.inj h
      subst this
      simp only [Bool.and_eq_true] at hc
      obtain ⟨⟨rfl, rfl⟩, rfl⟩ := hc
      exact ⟨h1, h2, h3, h4⟩
    · cases h
  · rintro ⟨h1, h2, h3, h4⟩
    rw [h1, Res.ok_bind, h2, Res.ok_bind, h3, Res.ok_bind, h4]
    rfl

/-- A history that some replay has accepted. -/
inductive Accepted (E : Env) (F : Str → Option Str) (H : Hash) : List Sadder → Prop
  | nil : Accepted E F H []
  | cons {history bytes e} : Accepted E F H history → acceptEvent E F H history bytes = .ok e → Accepted E F H (e :: history)

theorem replay_accepted {E : Env} {F : Str → Option Str} {H : Hash} : ∀ {bs : List (List UInt8)} {history result : List Sadder},
    Accepted E F H history → replay E F H history bs = .ok result → Accepted E F H result
  | [], _, _, ha, h => by rw [← Res.ok.inj h]; exact ha
  | _ :: _, _, _, ha, h => by
    obtain ⟨e, he, h⟩ := Res.bind_eq_ok.mp h
    exact replay_accepted (.cons ha he) h

theorem follows_ok {E : Env} {history : List Sadder} {e : Sadder} {o : List (Str × Value)} (ho : e.ked = .obj o) :
    follows E history e = .ok true ↔ match history with
      | [] => o.lookup (lit "p") = none
      | q :: _ => ∃ t, Sadder.said E q = .ok t ∧ o.lookup (lit "p") = some (.str t) := by
  unfold follows
  rw [ho]
  simp only [Value.toMap, Res.ok_bind]
  cases history with
  | nil =>
    dsimp only
    rw [Saider.hasKey_eq_isSome]
    cases o.lookup (lit "p") <;> simp
  | cons q rest =>
    dsimp only
    rw [Saider.hasKey_eq_isSome]
    cases hp : o.lookup (lit "p") with
    | none => simp
    | some v =>
      simp only [Option.isSome_some, if_true]
      rw [Sadder.index_ok.mpr ⟨o, rfl, hp⟩]
      constructor
      · intro h
        obtain ⟨said, hs, h⟩ := Res.bind_eq_ok.mp h
        rw [Res.ok_bind] at h
        obtain ⟨t, ht, h⟩ := Res.bind_eq_ok.mp h
        have h : t = said := by simpa using h
        subst h
        exact ⟨t, hs, by rw [Sadder.toStr_ok.mp ht]⟩
      · rintro ⟨t, hs, h⟩
        injection h with h
        subst h
        rw [hs, Res.ok_bind, Res.ok_bind, Sadder.toStr_ok.mpr rfl, Res.ok_bind]
        simp

theorem histories_agree {E : Env} {F : Str → Option Str} {H : Hash} : ∀ {xs ys : List Sadder} {x y : Sadder},
    Accepted E F H (x :: xs) → Accepted E F H (y :: ys) → (∀ e ∈ x :: xs, Plain e.ked) → (∀ e ∈ y :: ys, Plain e.ked) → Sadder.said E x = Sadder.said E y →
    (x :: xs).map (·.ked) = (y :: ys).map (·.ked) ∨ ∃ a ∈ x :: xs, ∃ b ∈ y :: ys, ContentsCollide H a b
  | xs, ys, x, y, .cons hax hx, .cons hay hy, px, py, h => by
    obtain ⟨nx, vx, fx, _⟩ := accept_ok.mp hx
    obtain ⟨ny, vy, fy, _⟩ := accept_ok.mp hy
    rcases same_said (event_isSaid nx) (event_isSaid ny) (px x (by simp)) (py y (by simp)) vx vy h with hk | hc
    · obtain ⟨o, _, _, ho, _⟩ := C44_content (event_isSaid nx) vx
      rw [follows_ok ho] at fx
      rw [follows_ok (hk ▸ ho)] at fy
      match xs, ys, hax, hay, px, py, fx, fy with
      | [], [], _, _, _, _, _, _ => left; simp [hk]
      | [], _ :: _, _, _, _, _, fx, fy =>
        obtain ⟨t, _, h⟩ := fy
        dsimp only at fx
        rw [fx] at h
        cases h
      | _ :: _, [], _, _, _, _, fx, fy =>
        obtain ⟨t, _, h⟩ := fx
        dsimp only at fy
        rw [fy] at h
        cases h
      | x' :: xs, y' :: ys, hax, hay, px, py, fx, fy =>
        obtain ⟨t, ht, h1⟩ := fx
        obtain ⟨u, hu, h2⟩ := fy
        rw [h1] at h2
        injection h2 with h2
        injection h2 with h2
        subst h2
        rcases histories_agree hax hay (fun e he => px e (by simp [he])) (fun e he => py e (by simp [he])) (ht.trans hu.symm) with hr | ⟨a, ha, b, hb, hc⟩
        · left
          rw [List.map_cons, List.map_cons (l := y' :: ys), hr, hk]
        · right
          exact ⟨a, by simp [ha], b, by simp [hb], hc⟩
    · right
      exact ⟨x, by simp, y, by simp, hc⟩
termination_by xs => xs.length

/-- C90. Two histories that a replay has accepted and that end with the same SAID are the same sequence of maps, however long they are - or two events in
them, one in each, have different contents with the same digest. The bytes may differ in white space, which the SAID does not see. -/
theorem C90_history {E : Env} {F : Str → Option Str} {H : Hash} {bs cs : List (List UInt8)} {x y : Sadder} {xs ys : List Sadder}
    (hx : replay E F H [] bs = .ok (x :: xs)) (hy : replay E F H [] cs = .ok (y :: ys)) (px : ∀ e ∈ x :: xs, Plain e.ked) (py : ∀ e ∈ y :: ys, Plain e.ked)
    (h : Sadder.said E x = Sadder.said E y) :
    (x :: xs).map (·.ked) = (y :: ys).map (·.ked) ∨ ∃ a ∈ x :: xs, ∃ b ∈ y :: ys, ContentsCollide H a b :=
  histories_agree (replay_accepted .nil hx) (replay_accepted .nil hy) px py h

/-! ## The keys an establishment event may use -/

theorem keysMatch_ok {E : Env} {H : Hash} : ∀ {ds ks : List Matter},
    keysMatch E H ds ks = .ok true ↔ Aligned (fun d k => ∃ t, k.qb64b E = .ok t ∧ Diger.verify H d t = .ok true) ds ks
  | [], [] => ⟨fun _ => .nil, fun _ => rfl⟩
  | [], _ :: _ => ⟨fun h => (by cases h), fun h => (by cases h)⟩
  | _ :: _, [] => ⟨fun h => (by cases h), fun h => (by cases h)⟩
  | d :: ds, k :: ks => by
    rw [keysMatch]
    constructor
    · intro h
      obtain ⟨t, ht, h⟩ := Res.bind_eq_ok.mp h
      obtain ⟨b, hb, h⟩ := Res.bind_eq_ok.mp h
      cases b with
      | false => cases h
      | true => exact .cons ⟨t, ht, hb⟩ (keysMatch_ok.mp h)
    · rintro (_ | ⟨⟨t, ht, hb⟩, hr⟩)
      rw [ht, Res.ok_bind, hb, Res.ok_bind]
      exact keysMatch_ok.mpr hr

theorem aligned_right {α β : Type} {R : α → β → Prop} {as : List α} {bs : List β} (h : Aligned R as bs) : ∀ b ∈ bs, ∃ a ∈ as, R a b := by
  induction h with
  | nil => simp
  | cons h _ ih =>
    intro b hb
    rcases List.mem_cons.mp hb with rfl | hb
    · exact ⟨_, by simp, h⟩
    · obtain ⟨a, ha, hr⟩ := ih b hb
      exact ⟨a, by simp [ha], hr⟩

/-- What `digers` returns are digests. -/
theorem digers_isDiger {E : Env} {H : Hash} {s : Sadder} {ds : List Matter} (h : Serder.digers E H s = .ok ds) : ∀ d ∈ ds, IsDiger E H d := by
  obtain ⟨map, hm, h⟩ := Res.bind_eq_ok.mp h
  split at h
  · obtain ⟨v, _, h⟩ := Res.bind_eq_ok.mp h
    split at h
    · intro d hd
      obtain ⟨_, _, t, _, ht⟩ := aligned_right (Serder.parseAll_ok.mp h) d hd
      exact ⟨_, _, _, _, _, _, ht⟩
    · rw [← Res.ok.inj h]; simp
    · cases h
  · rw [← Res.ok.inj h]; simp

/-- What `verfers` returns has been read from text. -/
theorem verfers_read {E : Env} {s : Sadder} {ks : List Matter} (h : Serder.verfers E s = .ok ks) : ∀ k ∈ ks, ∃ t, Matter.ofText E t = .ok k := by
  obtain ⟨map, hm, h⟩ := Res.bind_eq_ok.mp h
  split at h
  · obtain ⟨v, _, h⟩ := Res.bind_eq_ok.mp h
    split at h
    · intro d hd
      obtain ⟨_, _, t, _, ht⟩ := aligned_right (Serder.parseAll_ok.mp h) d hd
      exact ⟨t, (Verfer.text_ok.mp ht).1⟩
    · rw [← Res.ok.inj h]; simp
    · cases h
  · rw [← Res.ok.inj h]; simp

theorem commitments_isDiger {E : Env} {H : Hash} : ∀ {history : List Sadder} {ds : List Matter}, commitments E H history = .ok ds → ∀ d ∈ ds, IsDiger E H d
  | [], ds, h => by rw [← Res.ok.inj h]; simp
  | e :: earlier, ds, h => by
    rw [commitments] at h
    obtain ⟨b, _, h⟩ := Res.bind_eq_ok.mp h
    cases b with
    | true => exact digers_isDiger h
    | false => exact commitments_isDiger h

theorem commitments_congr {E : Env} {H : Hash} : ∀ {xs ys : List Sadder}, xs.map (·.ked) = ys.map (·.ked) → commitments E H xs = commitments E H ys
  | [], [], _ => rfl
  | [], _ :: _, h => by simp at h
  | _ :: _, [], h => by simp at h
  | x :: xs, y :: ys, h => by
    simp only [List.map_cons, List.cons.injEq] at h
    rw [commitments, commitments, commitments_congr h.2]
    have h1 : Serder.est x = Serder.est y := by unfold Serder.est; rw [h.1]
    have h2 : Serder.digers E H x = Serder.digers E H y := by unfold Serder.digers; rw [h.1]
    rw [h1, h2]

theorem keys_agree {E : Env} {H : Hash} : ∀ {ds ks ls : List Matter}, (∀ d ∈ ds, IsDiger E H d) → (∀ k ∈ ks, ∃ t, Matter.ofText E t = .ok k) →
    (∀ k ∈ ls, ∃ t, Matter.ofText E t = .ok k) →
    Aligned (fun d k => ∃ t, k.qb64b E = .ok t ∧ Diger.verify H d t = .ok true) ds ks →
    Aligned (fun d k => ∃ t, k.qb64b E = .ok t ∧ Diger.verify H d t = .ok true) ds ls →
    ks = ls ∨ ∃ d ∈ ds, ∃ k ∈ ks, ∃ l ∈ ls, ∃ t u, k.qb64b E = .ok t ∧ l.qb64b E = .ok u ∧ t ≠ u ∧ H.digest d.code t = H.digest d.code u
  | _, _, _, _, _, _, .nil, .nil => .inl rfl
  | d :: ds, k :: ks, l :: ls, hd, hk, hl, .cons ⟨t, ht, h1⟩ hr, .cons ⟨u, hu, h2⟩ hs => by
    have hdd := hd d (by simp)
    by_cases e : t = u
    · subst e
      obtain ⟨_, mk⟩ := hk k (by simp)
      obtain ⟨_, ml⟩ := hl l (by simp)
      obtain ⟨z, wk⟩ := Matter.new_text_wf (show Matter.new E none none none (some _) none = .ok k from mk) ht
      obtain ⟨y, wl⟩ := Matter.new_text_wf (show Matter.new E none none none (some _) none = .ok l from ml) hu
      have hkl : k = l := wk.text_inj wl (ht.trans hu.symm : k.qb64 E = l.qb64 E)
      rcases keys_agree (fun d h => hd d (by simp [h])) (fun d h => hk d (by simp [h])) (fun d h => hl d (by simp [h])) hr hs with h | ⟨a, ha, b, hb, c, hc, t', u', h⟩
      · left; rw [hkl, h]
      · right; exact ⟨a, by simp [ha], b, by simp [hb], c, by simp [hc], t', u', h⟩
    · right
      refine ⟨d, by simp, k, by simp, l, by simp, t, u, ht, hu, e, ?_⟩
      rw [C55_verify hdd] at h1 h2
      simp only [Res.ok.injEq, decide_eq_true_eq] at h1 h2
      rw [h1, h2]

theorem rotates_ok {E : Env} {H : Hash} {history : List Sadder} {e : Sadder} (hn : history ≠ []) (he : Serder.est e = .ok true) :
    rotates E H history e = .ok true ↔ ∃ ds ks, commitments E H history = .ok ds ∧ Serder.verfers E e = .ok ks ∧ keysMatch E H ds ks = .ok true := by
  match history, hn with
  | q :: rest, _ =>
    unfold rotates
    dsimp only
    rw [he, Res.ok_bind, if_pos rfl]
    constructor
    · intro h
      obtain ⟨ds, h1, h⟩ := Res.bind_eq_ok.mp h
      obtain ⟨ks, h2, h⟩ := Res.bind_eq_ok.mp h
      exact ⟨ds, ks, h1, h2, h⟩
    · rintro ⟨ds, ks, h1, h2, h3⟩
      rw [h1, Res.ok_bind, h2, Res.ok_bind, h3]

/-- C90, key commitments. After an accepted history, or two that end with the same SAID, two accepted establishment events set the same keys - or two
contents in the histories collide as in `C90_history`, or two different key texts have the same digest under one of the commitments. So one who knows
the history knows which keys can come next, before they are shown. -/
theorem C90_rotation {E : Env} {F : Str → Option Str} {H : Hash} {bs cs : List (List UInt8)} {x y : Sadder} {xs ys : List Sadder}
    (hx : replay E F H [] bs = .ok (x :: xs)) (hy : replay E F H [] cs = .ok (y :: ys)) (px : ∀ e ∈ x :: xs, Plain e.ked) (py : ∀ e ∈ y :: ys, Plain e.ked)
    (h : Sadder.said E x = Sadder.said E y) {b c : List UInt8} {e f : Sadder} (he : acceptEvent E F H (x :: xs) b = .ok e)
    (hf : acceptEvent E F H (y :: ys) c = .ok f) (ee : Serder.est e = .ok true) (ef : Serder.est f = .ok true) :
    ∃ ds ks ls, commitments E H (x :: xs) = .ok ds ∧ Serder.verfers E e = .ok ks ∧ Serder.verfers E f = .ok ls ∧
      (ks = ls ∨ (∃ p ∈ x :: xs, ∃ q ∈ y :: ys, ContentsCollide H p q) ∨
       ∃ d ∈ ds, ∃ k ∈ ks, ∃ l ∈ ls, ∃ t u, k.qb64b E = .ok t ∧ l.qb64b E = .ok u ∧ t ≠ u ∧ H.digest d.code t = H.digest d.code u) := by
  obtain ⟨_, _, _, re⟩ := accept_ok.mp he
  obtain ⟨_, _, _, rf⟩ := accept_ok.mp hf
  obtain ⟨ds, ks, hds, hks, me⟩ := (rotates_ok (by simp) ee).mp re
  obtain ⟨ds', ls, hds', hls, mf⟩ := (rotates_ok (by simp) ef).mp rf
  refine ⟨ds, ks, ls, hds, hks, hls, ?_⟩
  rcases C90_history hx hy px py h with hm | hc
  · rw [commitments_congr hm, hds'] at hds
    have := Res.ok.inj hds
    subst this
    rcases keys_agree (commitments_isDiger hds') (verfers_read hks) (verfers_read hls) (keysMatch_ok.mp me) (keysMatch_ok.mp mf) with h | h
    · exact .inl h
    · exact .inr (.inr h)
  · exact .inr (.inl hc)

/-- C90, nothing honest is refused. An event built from a map (version string first) whose `d` holds the digest of its content, is accepted after a
history when its `p` is the SAID of the latest event (missing in a first event) and, if it sets keys after others, each key text in `k` hashes to the
digest at its position in the `n` of the latest establishment event. Further text may follow its bytes. -/
theorem C90_accepts {E : Env} {F : Str → Option Str} {H : Hash} {kind : Option Str} {rest : List (Str × Value)} {x : Value} {s : Sadder}
    (h : Serder.new E F H none none kind (some (.obj ((lit "v", x) :: rest))) none = .ok s)
    (hp : Plain (.obj ((lit "v", x) :: rest))) (hF : FloatsRead F (.obj ((lit "v", x) :: rest))) (hu : Utf8Value (.obj ((lit "v", x) :: rest))) (hd : depth (.obj ((lit "v", x) :: rest)) < 128)
    (hl : s.raw.length < 2 ^ 32) {o : List (Str × Value)} (ho : s.ked = .obj o)
    (hg : Saider.verify E H s.saider s.ked (some true) (some true) none none none = .ok true) {history : List Sadder}
    (hf : match history with
      | [] => o.lookup (lit "p") = none
      | q :: _ => (∃ t, Sadder.said E q = .ok t ∧ o.lookup (lit "p") = some (.str t)) ∧
        (Serder.est s = .ok false ∨ Serder.est s = .ok true ∧ ∃ earlier e later os ks ts ds, history = later ++ e :: earlier ∧
          (∀ l ∈ later, Serder.est l = .ok false) ∧ Serder.est e = .ok true ∧ Serder.digers E H e = .ok ds ∧
          o.lookup (lit "k") = some (.arr os) ∧ Aligned (fun v t => v = Value.str t) os ts ∧
          Aligned (fun t k => Matter.ofText E t = .ok k ∧ k.code ∈ verferCodes ∧ k.qb64b E = .ok t) ts ks ∧
          Aligned (fun d t => H.digest d.code t = d.raw) ds ts)) {tail : Str} (htail : utf8Valid tail = true) :
    acceptEvent E F H history (s.raw ++ tail) = .ok s := by
  have hev : Serder.newWithRaw E F H (s.raw ++ tail) = .ok s := by
    have := C59_serder h hp hF hu hd hl tail
    rw [if_pos htail] at this
    exact this
  refine accept_ok.mpr ⟨hev, hg, (follows_ok ho).mpr ?_, ?_⟩
  · cases history with
    | nil => exact hf
    | cons q r => exact hf.1
  · cases history with
    | nil => rfl
    | cons q r =>
      rcases hf.2 with hn | ⟨hs, earlier, e, later, os, ks, ts, ds, he, h1, h2, h3, h4, h5, h6, h7⟩
      · unfold rotates
        dsimp only
        rw [hn, Res.ok_bind, if_neg (by simp)]
      · rw [rotates_ok (by simp) hs]
        refine ⟨ds, ks, ?_, ?_, keysMatch_ok.mpr ?_⟩
        · rw [he]
          clear he
          induction later with
          | nil => rw [List.nil_append, commitments, h2, Res.ok_bind, if_pos rfl, h3]
          | cons l later ih =>
            rw [List.cons_append, commitments, h1 l (by simp), Res.ok_bind, if_neg (by simp)]
            exact ih (fun m hm => h1 m (by simp [hm]))
        · refine ((C60_verfers ho).1 _ h4 _).mpr ?_
          clear h7 h4
          induction h5 generalizing ks with
          | nil => cases h6; exact .nil
          | cons a _ ih =>
            obtain _ | ⟨⟨g1, g2, g3⟩, g4⟩ := h6
            exact .cons ⟨_, a, g1, g2⟩ (ih _ g4)
        · have hdi := digers_isDiger h3
          clear h3 h5 h4
          induction h7 generalizing ks with
          | nil => cases h6; exact .nil
          | cons a _ ih =>
            obtain _ | ⟨⟨g1, g2, g3⟩, g4⟩ := h6
            refine .cons ⟨_, g3, ?_⟩ (ih _ g4 (fun d hd => hdi d (by simp [hd])))
            rw [C55_verify (hdi _ (by simp)), a]
            simp

/-! ## A concrete history

Three events, the last of which uses the key that the first has committed to, under a hash function that adds bytes. -/

/-- A hash function that adds up the bytes. -/
def addingHash : Hash where
  digest code ser :=
    UInt8.ofNat (ser.foldl (fun a b => a + b.toNat) 0 / 256) :: UInt8.ofNat (ser.foldl (fun a b => a + b.toNat) 0) ::
      List.replicate (if code.length = 1 then 30 else 62) 0
  length := by
    intro code n h ser
    have : ∀ e ∈ digestSizes, (if e.1.length = 1 then 30 else 62) + 2 = e.2 := by decide +kernel
    simp only [List.length_cons, List.length_replicate]
    exact this _ h

def zeros41 : Str := List.replicate 40 (ch 'A')

def historyIcp : List (Str × Value) :=
  [(lit "v", .str (lit "KERI10JSON0000c0_")), (lit "t", .str (lit "icp")), (lit "d", .str (lit "ECwh" ++ zeros41)),
    (lit "k", .arr [.str (lit "DAEBAQEBAQEBAQEBAQEBAQEBAQEBAQEBAQEBAQEBAQEB")]), (lit "n", .arr [.str (lit "EA4x" ++ zeros41)])]

def historyIxn : List (Str × Value) :=
  [(lit "v", .str (lit "KERI10JSON000089_")), (lit "t", .str (lit "ixn")), (lit "d", .str (lit "EB16" ++ zeros41)), (lit "p", .str (lit "ECwh" ++ zeros41))]

def historyRot : List (Str × Value) :=
  [(lit "v", .str (lit "KERI10JSON0000c9_")), (lit "t", .str (lit "rot")), (lit "d", .str (lit "EC9E" ++ zeros41)), (lit "p", .str (lit "EB16" ++ zeros41)),
    (lit "k", .arr [.str (lit "1AABAgICAgICAgICAgICAgICAgICAgICAgICAgICAgICAgIC")]), (lit "n", .arr [])]

/-- The event of a map, with the two bytes of its digest. -/
def historyEvent (o : List (Str × Value)) (a b : UInt8) : Sadder :=
  { code := lit "E", raw := (Value.obj o).toJson, ked := .obj o, ident := lit "KERI", kind := lit "JSON", size := (Value.obj o).toJson.length,
    version := ⟨1, 0⟩, saider := ⟨lit "E", 0, a :: b :: List.replicate 30 0⟩ }

/-- The premises of `C90_history` and `C90_rotation` are met. -/
theorem sample_replayed :
    replay Env.debug (fun _ => none) addingHash [] [(Value.obj historyIcp).toJson, (Value.obj historyIxn).toJson] =
      .ok [historyEvent historyIxn 29 122, historyEvent historyIcp 44 33] ∧
    acceptEvent Env.debug (fun _ => none) addingHash [historyEvent historyIxn 29 122, historyEvent historyIcp 44 33] (Value.obj historyRot).toJson =
      .ok (historyEvent historyRot 47 68) ∧
    Serder.est (historyEvent historyRot 47 68) = .ok true ∧
    (∀ e ∈ [historyEvent historyIxn 29 122, historyEvent historyIcp 44 33], Plain e.ked) := by
  refine ⟨by kernel_rfl, by kernel_rfl, by kernel_rfl, ?_⟩
  intro e he
  simp only [List.mem_cons, List.not_mem_nil, or_false] at he
  rcases he with rfl | rfl <;> simp [historyEvent, historyIcp, historyIxn, Plain, PlainFields, PlainElems, lit]

/-- A history that lacks its first event, one that lacks its second, and one in which the first comes twice are refused. -/
theorem sample_refused :
    replay Env.debug (fun _ => none) addingHash [] [(Value.obj historyIxn).toJson] = .err .validation ∧
    replay Env.debug (fun _ => none) addingHash [] [(Value.obj historyIcp).toJson, (Value.obj historyRot).toJson] = .err .validation ∧
    replay Env.debug (fun _ => none) addingHash [] [(Value.obj historyIcp).toJson, (Value.obj historyIcp).toJson] = .err .validation :=
  ⟨by kernel_rfl, by kernel_rfl, by kernel_rfl⟩

/-- The premises of `C90_accepts` are met by the third event. -/
theorem sample_accepts :
    acceptEvent Env.debug (fun _ => none) addingHash [historyEvent historyIxn 29 122, historyEvent historyIcp 44 33] ((historyEvent historyRot 47 68).raw ++ lit "-AAB") =
      .ok (historyEvent historyRot 47 68) := by
  refine C90_accepts (history := [historyEvent historyIxn 29 122, historyEvent historyIcp 44 33]) (kind := none) (x := .str (lit "KERI10JSON000000_")) (rest := historyRot.tail) (by kernel_rfl)
    (by simp [Plain, PlainFields, PlainElems, lit, historyRot]) (floatsRead_of_noFloats _ (by decide +kernel)) (by simp [Utf8Value, Utf8Fields, Utf8Elems, historyRot]; decide +kernel) (by decide +kernel)
    (by decide +kernel) (o := historyRot) rfl (by kernel_rfl) ⟨⟨_, by kernel_rfl, rfl⟩, .inr ⟨by kernel_rfl, ?_⟩⟩ (by decide +kernel)
  refine ⟨[], historyEvent historyIcp 44 33, [historyEvent historyIxn 29 122], _,
    [⟨lit "1AAB", 0, List.replicate 33 2⟩], [lit "1AABAgICAgICAgICAgICAgICAgICAgICAgICAgICAgICAgIC"], [⟨lit "E", 0, 14 :: 49 :: List.replicate 30 0⟩], rfl, ?_, by kernel_rfl,
    by kernel_rfl, rfl, .cons rfl .nil, .cons ⟨by kernel_rfl, by decide +kernel, by kernel_rfl⟩ .nil, .cons (by kernel_rfl) .nil⟩
  intro l hl
  simp only [List.mem_cons, List.not_mem_nil, or_false] at hl
  subst hl
  kernel_rfl

end Cesride
