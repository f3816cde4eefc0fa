import Verif.Props.History

/-!
# Property C94: credential graphs

A credential names the credentials it rests on by their SAIDs in its edge section `e`. The client below checks a credential together with all those it
rests on, however deep; its loops are not library code, everything it calls is.
-/

namespace Cesride
open Spec

mutual
/-- The SAIDs that an edge section names, in order: the text `n` of a block that has one, else those of its parts. -/
def edgeNames : Value → List Str
  | .obj o => match o.lookup (lit "n") with
    | some (.str t) => [t]
    | _ => edgeNamesFields o
  | .arr a => edgeNamesElems a
  | _ => []
def edgeNamesElems : List Value → List Str
  | [] => []
  | v :: rest => edgeNames v ++ edgeNamesElems rest
def edgeNamesFields : List (Str × Value) → List Str
  | [] => []
  | (_, v) :: rest => edgeNames v ++ edgeNamesFields rest
end

/-- The bytes of a credential with those of the credentials its edges name, in order. -/
inductive Dossier where
  | node (bytes : List UInt8) (parts : List Dossier)

/-- A credential with those it rests on. -/
inductive Graph where
  | node (root : Sadder) (parts : List Graph)

def Graph.root : Graph → Sadder
  | .node c _ => c

/-- The SAIDs of the credentials at the top of some graphs. -/
def rootSaids (E : Env) : List Graph → Res (List Str)
  | [] => .ok []
  | g :: gs => do
    let t ← Sadder.said E g.root
    let ts ← rootSaids E gs
    .ok (t :: ts)

mutual
/-- Check a credential and all it rests on. -/
def openDossier (E : Env) (F : Str → Option Str) (H : Hash) : Dossier → Res Graph
  | .node bytes parts => do
    let c ← Creder.newWithRaw E F H bytes
    let genuine ← Saider.verify E H c.saider c.ked (some true) (some true) none none none
    let edges ← Creder.chains c
    let gs ← openAll E F H parts
    let saids ← rootSaids E gs
    if genuine && decide (saids = edgeNames edges) then .ok (.node c gs) else .err .validation
def openAll (E : Env) (F : Str → Option Str) (H : Hash) : List Dossier → Res (List Graph)
  | [] => .ok []
  | d :: ds => do
    let g ← openDossier E F H d
    let gs ← openAll E F H ds
    .ok (g :: gs)
end

mutual
/-- Two graphs have the same shape and the same maps. -/
def SameMaps : Graph → Graph → Prop
  | .node c gs, .node d hs => c.ked = d.ked ∧ SameMapsAll gs hs
def SameMapsAll : List Graph → List Graph → Prop
  | [], [] => True
  | g :: gs, h :: hs => SameMaps g h ∧ SameMapsAll gs hs
  | _, _ => False
end

mutual
/-- `P` holds of two credentials reached along the same path in two graphs. -/
inductive Somewhere (P : Sadder → Sadder → Prop) : Graph → Graph → Prop
  | here {c d gs hs} : P c d → Somewhere P (.node c gs) (.node d hs)
  | part {c d gs hs} : SomewhereAll P gs hs → Somewhere P (.node c gs) (.node d hs)
inductive SomewhereAll (P : Sadder → Sadder → Prop) : List Graph → List Graph → Prop
  | head {g h gs hs} : Somewhere P g h → SomewhereAll P (g :: gs) (h :: hs)
  | tail {g h gs hs} : SomewhereAll P gs hs → SomewhereAll P (g :: gs) (h :: hs)
end

mutual
/-- All maps of the graph are plain. -/
def PlainGraph : Graph → Prop
  | .node c gs => Plain c.ked ∧ PlainGraphs gs
def PlainGraphs : List Graph → Prop
  | [] => True
  | g :: gs => PlainGraph g ∧ PlainGraphs gs
end

theorem creder_isSaid {E : Env} {F : Str → Option Str} {H : Hash} {bytes : List UInt8} {s : Sadder} (h : Creder.newWithRaw E F H bytes = .ok s) :
    IsSaid E H s.saider := by
  obtain ⟨size, o, m, hm, rfl⟩ := (C82_creder E F H none none bytes none none s).mp h
  obtain ⟨_, _, _, _, t, _, hm, _⟩ := hm
  exact ⟨_, _, _, _, _, _, _, _, _, hm⟩

theorem openDossier_ok {E : Env} {F : Str → Option Str} {H : Hash} {bytes : List UInt8} {parts : List Dossier} {g : Graph} :
    openDossier E F H (.node bytes parts) = .ok g ↔ ∃ c gs edges, g = .node c gs ∧ Creder.newWithRaw E F H bytes = .ok c ∧
      Saider.verify E H c.saider c.ked (some true) (some true) none none none = .ok true ∧ Creder.chains c = .ok edges ∧ openAll E F H parts = .ok gs ∧
      rootSaids E gs = .ok (edgeNames edges) := by
  rw [openDossier]
  constructor
  · intro h
    obtain ⟨c, h1, h⟩ := Res.bind_eq_ok.mp h
    obtain ⟨genuine, h2, h⟩ := Res.bind_eq_ok.mp h
    obtain ⟨edges, h3, h⟩ := Res.bind_eq_ok.mp h
    obtain ⟨gs, h4, h⟩ := Res.bind_eq_ok.mp h
    obtain ⟨saids, h5, h⟩ := Res.bind_eq_ok.mp h
    split at h
    · rename_i hb
      have h := Res.ok.inj h
      subst h
      simp only [Bool.and_eq_true, decide_eq_true_eq] at hb
      obtain ⟨rfl, rfl⟩ := hb
      exact ⟨c, gs, edges, rfl, h1, h2, h3, h4, h5⟩
    · cases h
  · rintro ⟨c, gs, edges, rfl, h1, h2, h3, h4, h5⟩
    rw [h1, Res.ok_bind, h2, Res.ok_bind, h3, Res.ok_bind, h4, Res.ok_bind, h5, Res.ok_bind]
    simp

/-- The edge section `v` names the credential `t`: an edge is an object with a text in `n`; groups of edges are objects without one, and lists. -/
inductive Spec.NamesEdge : Value → Str → Prop
  | edge {o t} : o.lookup (lit "n") = some (.str t) → NamesEdge (.obj o) t
  | group {o t k v} : (∀ u, o.lookup (lit "n") ≠ some (.str u)) → (k, v) ∈ o → NamesEdge v t → NamesEdge (.obj o) t
  | list {a t v} : v ∈ a → NamesEdge v t → NamesEdge (.arr a) t

mutual
theorem edgeNames_iff (t : Str) : ∀ v, t ∈ edgeNames v ↔ Spec.NamesEdge v t
  | .obj o => by
    rw [edgeNames]
    split
    · rename_i u hu
      refine ⟨fun h => by cases List.mem_singleton.mp h; exact .edge hu, fun h => ?_⟩
      cases h with
      | edge h => rw [hu] at h; cases h; exact List.mem_singleton.mpr rfl
      | group h => exact absurd hu (h u)
    · rename_i hn
      rw [edgeNamesFields_iff t o]
      refine ⟨fun ⟨k, v, hm, h⟩ => .group (fun u hu => hn u hu) hm h, fun h => ?_⟩
      cases h with
      | edge h => exact absurd h (hn t)
      | group _ hm h => exact ⟨_, _, hm, h⟩
  | .arr a => by
    rw [edgeNames, edgeNamesElems_iff t a]
    refine ⟨fun ⟨v, hm, h⟩ => .list hm h, fun h => ?_⟩
    cases h with
    | list hm h => exact ⟨_, hm, h⟩
  | .null => by simp only [edgeNames]; exact ⟨fun h => (List.not_mem_nil h).elim, fun h => nomatch h⟩
  | .bool _ => by simp only [edgeNames]; exact ⟨fun h => (List.not_mem_nil h).elim, fun h => nomatch h⟩
  | .int _ => by simp only [edgeNames]; exact ⟨fun h => (List.not_mem_nil h).elim, fun h => nomatch h⟩
  | .float _ => by simp only [edgeNames]; exact ⟨fun h => (List.not_mem_nil h).elim, fun h => nomatch h⟩
  | .str _ => by simp only [edgeNames]; exact ⟨fun h => (List.not_mem_nil h).elim, fun h => nomatch h⟩
theorem edgeNamesElems_iff (t : Str) : ∀ a, t ∈ edgeNamesElems a ↔ ∃ v, v ∈ a ∧ Spec.NamesEdge v t
  | [] => by rw [edgeNamesElems]; simp
  | v :: rest => by
    rw [edgeNamesElems, List.mem_append, edgeNames_iff t v, edgeNamesElems_iff t rest]
    simp
theorem edgeNamesFields_iff (t : Str) : ∀ o, t ∈ edgeNamesFields o ↔ ∃ k v, (k, v) ∈ o ∧ Spec.NamesEdge v t
  | [] => by rw [edgeNamesFields]; simp
  | (k, v) :: rest => by
    rw [edgeNamesFields, List.mem_append, edgeNames_iff t v, edgeNamesFields_iff t rest]
    constructor
    · rintro (h | ⟨k', v', hm, h⟩)
      · exact ⟨k, v, List.mem_cons_self, h⟩
      · exact ⟨k', v', List.mem_cons_of_mem _ hm, h⟩
    · rintro ⟨k', v', hm, h⟩
      rcases List.mem_cons.mp hm with e | hm
      · cases e; exact .inl h
      · exact .inr ⟨k', v', hm, h⟩
end

/-- C94. In what the client accepts, the credentials that a credential rests on are those that its edge section names, at every depth of lists and groups, no others. -/
theorem C94_edges {E : Env} {F : Str → Option Str} {H : Hash} {d : Dossier} {c : Sadder} {gs : List Graph} (h : openDossier E F H d = .ok (.node c gs)) :
    ∃ edges, Creder.chains c = .ok edges ∧ ∀ t, Spec.NamesEdge edges t ↔ ∃ g ∈ gs, Sadder.said E g.root = .ok t := by
  obtain ⟨bytes, parts⟩ := d
  obtain ⟨c', gs', edges, hg, _, _, hch, hop, hr⟩ := openDossier_ok.mp h
  cases hg
  refine ⟨edges, hch, fun t => ?_⟩
  rw [← edgeNames_iff]
  clear hch h hop
  generalize edgeNames edges = ts at hr
  induction gs generalizing ts with
  | nil => rw [rootSaids] at hr; cases hr; simp
  | cons g gs ih =>
    rw [rootSaids] at hr
    obtain ⟨u, hu, hr⟩ := Res.bind_eq_ok.mp hr
    obtain ⟨us, hus, hr⟩ := Res.bind_eq_ok.mp hr
    cases hr
    rw [List.mem_cons, ih us hus]
    constructor
    · rintro (rfl | ⟨g', hg', h⟩)
      · exact ⟨g, List.mem_cons_self, hu⟩
      · exact ⟨g', List.mem_cons_of_mem _ hg', h⟩
    · rintro ⟨g', hg', h⟩
      rcases List.mem_cons.mp hg' with rfl | hg'
      · exact .inl (Res.ok.inj (h.symm.trans hu))
      · exact .inr ⟨g', hg', h⟩
/-- An edge within a group, and one within a list within that group. -/
example : Spec.NamesEdge (.obj [(lit "g", .obj [(lit "x", .obj [(lit "n", .str (lit "A"))]), (lit "y", .arr [.obj [(lit "n", .str (lit "B"))]])])]) (lit "B") :=
  .group (fun _ h => nomatch h) (List.mem_cons_self) (.group (fun _ h => nomatch h) (List.mem_cons_of_mem _ List.mem_cons_self)
    (.list List.mem_cons_self (.edge rfl)))

mutual
theorem graphs_agree {E : Env} {F : Str → Option Str} {H : Hash} : ∀ {a b : Dossier} {x y : Graph}, openDossier E F H a = .ok x → openDossier E F H b = .ok y →
    PlainGraph x → PlainGraph y → Sadder.said E x.root = Sadder.said E y.root → SameMaps x y ∨ Somewhere (ContentsCollide H) x y
  | .node ba pa, .node bb pb, x, y, hx, hy, px, py, h => by
    obtain ⟨c, gs, ec, rfl, c1, c2, c3, c4, c5⟩ := openDossier_ok.mp hx
    obtain ⟨d, hs, ed, rfl, d1, d2, d3, d4, d5⟩ := openDossier_ok.mp hy
    rw [PlainGraph] at px py
    rcases same_said (creder_isSaid c1) (creder_isSaid d1) px.1 py.1 c2 d2 h with hk | hc
    · have he : Creder.chains c = Creder.chains d := by unfold Creder.chains; rw [hk]
      rw [c3, d3] at he
      obtain rfl := Res.ok.inj he
      rcases graphs_agree_all c4 d4 px.2 py.2 (c5.trans d5.symm) ⟨_, c5⟩ with hr | hr
      · exact .inl (by rw [SameMaps]; exact ⟨hk, hr⟩)
      · exact .inr (.part hr)
    · exact .inr (.here hc)
theorem graphs_agree_all {E : Env} {F : Str → Option Str} {H : Hash} : ∀ {as bs : List Dossier} {xs ys : List Graph}, openAll E F H as = .ok xs →
    openAll E F H bs = .ok ys → PlainGraphs xs → PlainGraphs ys → rootSaids E xs = rootSaids E ys → (∃ ts, rootSaids E xs = .ok ts) →
    SameMapsAll xs ys ∨ SomewhereAll (ContentsCollide H) xs ys
  | [], bs, xs, ys, hx, hy, px, py, h, _ => by
    have hx : Res.ok [] = .ok xs := hx
    obtain rfl := Res.ok.inj hx
    cases ys with
    | nil => left; rw [SameMapsAll]; trivial
    | cons y ys =>
      rw [rootSaids, rootSaids] at h
      obtain ⟨t, _, h⟩ := Res.bind_eq_ok.mp h.symm
      obtain ⟨ts, _, h⟩ := Res.bind_eq_ok.mp h
      cases h
  | a :: as, [], xs, ys, hx, hy, px, py, h, ⟨ts, hts⟩ => by
    rw [openAll] at hx
    have hy : Res.ok [] = .ok ys := hy
    obtain rfl := Res.ok.inj hy
    obtain ⟨x, _, hx⟩ := Res.bind_eq_ok.mp hx
    obtain ⟨xs, _, hx⟩ := Res.bind_eq_ok.mp hx
    obtain rfl := Res.ok.inj hx
    rw [rootSaids, rootSaids] at h
    obtain ⟨t, _, h⟩ := Res.bind_eq_ok.mp h
    obtain ⟨ts, _, h⟩ := Res.bind_eq_ok.mp h
    cases h
  | a :: as, b :: bs, xs, ys, hx, hy, px, py, h, ⟨ts, hts⟩ => by
    rw [openAll] at hy hx
    obtain ⟨x, hx1, hx⟩ := Res.bind_eq_ok.mp hx
    obtain ⟨xs, hx2, hx⟩ := Res.bind_eq_ok.mp hx
    obtain rfl := Res.ok.inj hx
    obtain ⟨y, hy1, hy⟩ := Res.bind_eq_ok.mp hy
    obtain ⟨ys, hy2, hy⟩ := Res.bind_eq_ok.mp hy
    obtain rfl := Res.ok.inj hy
    rw [PlainGraphs] at px py
    rw [hts] at h
    rw [rootSaids] at hts
    obtain ⟨t, t1, hts⟩ := Res.bind_eq_ok.mp hts
    obtain ⟨ts', t2, hts⟩ := Res.bind_eq_ok.mp hts
    obtain rfl := Res.ok.inj hts
    have h := h.symm
    rw [rootSaids] at h
    obtain ⟨u, u1, h⟩ := Res.bind_eq_ok.mp h
    obtain ⟨us, u2, h⟩ := Res.bind_eq_ok.mp h
    have h := Res.ok.inj h
    simp only [List.cons.injEq] at h
    obtain ⟨rfl, rfl⟩ := h
    rcases graphs_agree hx1 hy1 px.1 py.1 (t1.trans u1.symm) with h1 | h1
    · rcases graphs_agree_all hx2 hy2 px.2 py.2 (t2.trans u2.symm) ⟨_, t2⟩ with h2 | h2
      · left; rw [SameMapsAll]; exact ⟨h1, h2⟩
      · exact .inr (.tail h2)
    · exact .inr (.head h1)
end

/-- C94. Two dossiers of any shape that the client has accepted and whose top credentials have the same SAID consist of the same credentials: the same shape
with the same maps - or at some place, the same in both, two credentials have different contents with the same digest. So the SAID of one credential
fixes everything it rests on. -/
theorem C94_graph {E : Env} {F : Str → Option Str} {H : Hash} {a b : Dossier} {x y : Graph} (hx : openDossier E F H a = .ok x) (hy : openDossier E F H b = .ok y)
    (px : PlainGraph x) (py : PlainGraph y) (h : Sadder.said E x.root = Sadder.said E y.root) : SameMaps x y ∨ Somewhere (ContentsCollide H) x y :=
  graphs_agree hx hy px py h

mutual
/-- An honest dossier for a graph: each credential is built from a map (version string first) whose `d` holds the digest of its content and whose edges name
the SAIDs of the next ones, and is sent as its bytes with any text after them. -/
inductive Honest (E : Env) (F : Str → Option Str) (H : Hash) : Graph → Dossier → Prop
  | node {kind rest x s o gs ds tail saids} (h : Creder.new E F H none none kind (some (.obj ((lit "v", x) :: rest))) none = .ok s)
      (hp : Plain (.obj ((lit "v", x) :: rest))) (hF : FloatsRead F (.obj ((lit "v", x) :: rest))) (hu : Utf8Value (.obj ((lit "v", x) :: rest))) (hd : depth (.obj ((lit "v", x) :: rest)) < 128)
      (hl : s.raw.length < 2 ^ 32) (hg : Saider.verify E H s.saider s.ked (some true) (some true) none none none = .ok true) (ho : s.ked = .obj o)
      (hn : edgeNames ((o.lookup (lit "e")).getD (.obj [])) = saids) (hs : Aligned (fun g t => Sadder.said E g.root = .ok t) gs saids) (ht : utf8Valid tail = true)
      (hr : HonestAll E F H gs ds) : Honest E F H (.node s gs) (.node (s.raw ++ tail) ds)
inductive HonestAll (E : Env) (F : Str → Option Str) (H : Hash) : List Graph → List Dossier → Prop
  | nil : HonestAll E F H [] []
  | cons {g d gs ds} : Honest E F H g d → HonestAll E F H gs ds → HonestAll E F H (g :: gs) (d :: ds)
end

theorem rootSaids_of {E : Env} {gs : List Graph} {ts : List Str} (h : Aligned (fun g t => Sadder.said E g.root = .ok t) gs ts) : rootSaids E gs = .ok ts := by
  induction h with
  | nil => rfl
  | cons h _ ih => rw [rootSaids, h, Res.ok_bind, ih, Res.ok_bind]

mutual
/-- C94, nothing honest is refused. -/
theorem C94_opens {E : Env} {F : Str → Option Str} {H : Hash} : ∀ {d : Dossier} {g : Graph}, Honest E F H g d → openDossier E F H d = .ok g
  | .node _ _, .node s gs, .node h hp hF hu hd hl hg ho hn hs ht hr => by
    have hc := C59_creder h hp hF hu hd hl
    have hch : Creder.chains s = .ok _ := (C61_fields ho).2.2.2.2.2.2.2.2.1
    refine openDossier_ok.mpr ⟨s, gs, _, rfl, ?_, hg, hch, opensAll hr, ?_⟩
    · exact (hc _).trans (if_pos ht)
    · rw [hn]
      exact rootSaids_of hs
theorem opensAll {E : Env} {F : Str → Option Str} {H : Hash} : ∀ {ds : List Dossier} {gs : List Graph}, HonestAll E F H gs ds → openAll E F H ds = .ok gs
  | [], [], _ => by rw [openAll]
  | d :: ds, g :: gs, .cons h hr => by
    rw [openAll, C94_opens h, Res.ok_bind, opensAll hr, Res.ok_bind]
end

/-! ## A concrete dossier -/

def graphLeaf : List (Str × Value) :=
  [(lit "v", .str (lit "ACDC10JSON00005d_")), (lit "d", .str (lit "EBLC" ++ zeros41)), (lit "a", .obj [(lit "name", .str (lit "x"))])]

def graphRoot : List (Str × Value) :=
  [(lit "v", .str (lit "ACDC10JSON0000d2_")), (lit "d", .str (lit "EDCo" ++ zeros41)),
    (lit "e", .obj [(lit "o", .str (lit "AND")), (lit "one", .obj [(lit "n", .str (lit "EBLC" ++ zeros41))]), (lit "two", .obj [(lit "n", .str (lit "EBLC" ++ zeros41))])])]

/-- The credential of a map, with the two bytes of its digest. -/
def graphCred (o : List (Str × Value)) (a b : UInt8) : Sadder := { historyEvent o a b with ident := lit "ACDC" }

def graphSample : Graph := .node (graphCred graphRoot 48 168) [.node (graphCred graphLeaf 18 194) [], .node (graphCred graphLeaf 18 194) []]

def dossierSample : Dossier :=
  .node ((graphCred graphRoot 48 168).raw ++ lit "-") [.node ((graphCred graphLeaf 18 194).raw ++ []) [], .node ((graphCred graphLeaf 18 194).raw ++ []) []]

theorem leaf_honest : Honest Env.debug (fun _ => none) addingHash (.node (graphCred graphLeaf 18 194) []) (.node ((graphCred graphLeaf 18 194).raw ++ []) []) :=
  .node (kind := none) (x := .str (lit "ACDC10JSON000000_")) (rest := graphLeaf.tail) (o := graphLeaf) (saids := []) (by kernel_rfl)
    (by simp [Plain, PlainFields, lit, graphLeaf]) (floatsRead_of_noFloats _ (by decide +kernel)) (by simp [Utf8Value, Utf8Fields, graphLeaf]; decide +kernel) (by decide +kernel)
    (by decide +kernel) (by kernel_rfl) rfl (by kernel_rfl) .nil (by decide +kernel) .nil

/-- The premises of `C94_opens` and, with the same dossier twice, those of `C94_graph` are met. -/
theorem sample_dossier : openDossier Env.debug (fun _ => none) addingHash dossierSample = .ok graphSample ∧ PlainGraph graphSample := by
  refine ⟨C94_opens ?_, ?_⟩
  · exact .node (kind := none) (x := .str (lit "ACDC10JSON000000_")) (rest := graphRoot.tail) (o := graphRoot) (saids := [lit "EBLC" ++ zeros41, lit "EBLC" ++ zeros41]) (by kernel_rfl)
      (by simp [Plain, PlainFields, lit, graphRoot]) (floatsRead_of_noFloats _ (by decide +kernel)) (by simp [Utf8Value, Utf8Fields, graphRoot]; decide +kernel) (by decide +kernel)
      (by decide +kernel) (by kernel_rfl) rfl (by kernel_rfl) (.cons (by kernel_rfl) (.cons (by kernel_rfl) .nil)) (by decide +kernel) (.cons leaf_honest (.cons leaf_honest .nil))
  · simp [graphSample, PlainGraph, PlainGraphs, graphCred, historyEvent, graphRoot, graphLeaf, Plain, PlainFields, lit]

/-- With a part missing, and with a part that is not the one named, the dossier is refused. -/
theorem sample_no_dossier :
    openDossier Env.debug (fun _ => none) addingHash (.node (graphCred graphRoot 48 168).raw [.node (graphCred graphLeaf 18 194).raw []]) = .err .validation ∧
    openDossier Env.debug (fun _ => none) addingHash (.node (graphCred graphRoot 48 168).raw [.node (graphCred graphLeaf 18 194).raw [], dossierSample]) = .err .validation := by
  refine ⟨by kernel_rfl, by kernel_rfl⟩

end Cesride
