import Verif.Props.Graph
import Verif.Props.Pather
import Verif.Props.Short

/-!
# Property C98: selective disclosure

A document may carry, instead of a part, the SAID of that part, and the part may be shown later or not at all. The client below checks a document and the
parts shown with it, each found through a path into the document above it, however deep; its loops are not library code, everything it calls is.
-/

namespace Cesride
open Spec

/-- A document, with some of its parts: each part has the path at which the document names its SAID. -/
inductive Disclosure where
  | node (doc : Value) (paths : List Matter) (parts : List Disclosure)

mutual
/-- Check a document and all the parts shown with it under a SAID. -/
def disclose (E : Env) (H : Hash) : Matter → Disclosure → Res Bool
  | said, .node doc paths parts => do
    if ← Saider.verify E H said doc (some true) (some true) none none none then discloseAll E H doc paths parts else .ok false
def discloseAll (E : Env) (H : Hash) (doc : Value) : List Matter → List Disclosure → Res Bool
  | [], [] => .ok true
  | p :: ps, d :: ds => do
    let v ← Pather.resolve E p doc
    let t ← v.toStr
    let said ← Saider.newWithQb64 E H t
    if ← disclose E H said d then discloseAll E H doc ps ds else .ok false
  | _, _ => .ok false
end

/-- `route` is the list of paths to follow, one per level, from the top of a disclosure to the document `doc` shown in it. -/
inductive Shown : Disclosure → List Matter → Value → Prop
  | top {doc paths parts} : Shown (.node doc paths parts) [] doc
  | part {doc paths parts p d route x} {i : Nat} : paths[i]? = some p → parts[i]? = some d → Shown d route x → Shown (.node doc paths parts) (p :: route) x

/-- The contents of two documents, as SAIDs with this code are computed over them, are different byte strings with the same digest. -/
def DocumentsCollide (H : Hash) (code : Str) (a b : Value) : Prop :=
  ∃ n oa ob ca cb, a = .obj oa ∧ b = .obj ob ∧ SaidContent n (lit "d") [] oa ca ∧ SaidContent n (lit "d") [] ob cb ∧
    (Value.obj ca).toJson ≠ (Value.obj cb).toJson ∧ H.digest code (Value.obj ca).toJson = H.digest code (Value.obj cb).toJson

theorem same_document {E : Env} {H : Hash} {s : Matter} (hs : IsSaid E H s) {a b : Value} (pa : Plain a) (pb : Plain b)
    (va : Saider.verify E H s a (some true) (some true) none none none = .ok true) (vb : Saider.verify E H s b (some true) (some true) none none none = .ok true) :
    a = b ∨ DocumentsCollide H s.code a b := by
  have key := @same_said E H { (historyEvent [] 0 0) with ked := a, saider := s } { (historyEvent [] 0 0) with ked := b, saider := s } hs hs pa pb va vb rfl
  exact key

theorem disclose_ok {E : Env} {H : Hash} {said : Matter} {doc : Value} {paths : List Matter} {parts : List Disclosure} :
    disclose E H said (.node doc paths parts) = .ok true ↔ Saider.verify E H said doc (some true) (some true) none none none = .ok true ∧
      discloseAll E H doc paths parts = .ok true := by
  rw [disclose]
  constructor
  · intro h
    obtain ⟨b, h1, h⟩ := Res.bind_eq_ok.mp h
    cases b with
    | false => cases h
    | true => exact ⟨h1, h⟩
  · rintro ⟨h1, h2⟩
    rw [h1, Res.ok_bind]
    exact h2

theorem discloseAll_ok {E : Env} {H : Hash} {doc : Value} : ∀ {paths : List Matter} {parts : List Disclosure},
    discloseAll E H doc paths parts = .ok true ↔
      Aligned (fun p d => ∃ t said, Pather.resolve E p doc = .ok (.str t) ∧ Saider.newWithQb64 E H t = .ok said ∧ disclose E H said d = .ok true) paths parts
  | [], [] => by rw [discloseAll]; exact ⟨fun _ => .nil, fun _ => rfl⟩
  | [], _ :: _ => by rw [discloseAll]; exact ⟨fun h => (by cases h), fun h => (by cases h)⟩; all_goals simp
  | _ :: _, [] => by rw [discloseAll]; exact ⟨fun h => (by cases h), fun h => (by cases h)⟩; all_goals simp
  | p :: ps, d :: ds => by
    rw [discloseAll]
    constructor
    · intro h
      obtain ⟨v, h1, h⟩ := Res.bind_eq_ok.mp h
      obtain ⟨t, h2, h⟩ := Res.bind_eq_ok.mp h
      obtain ⟨said, h3, h⟩ := Res.bind_eq_ok.mp h
      obtain ⟨b, h4, h⟩ := Res.bind_eq_ok.mp h
      cases b with
      | false => cases h
      | true =>
        rw [Sadder.toStr_ok.mp h2] at h1
        exact .cons ⟨t, said, h1, h3, h4⟩ (discloseAll_ok.mp h)
    · rintro (_ | ⟨⟨t, said, h1, h3, h4⟩, hr⟩)
      rw [h1, Res.ok_bind, Sadder.toStr_ok.mpr rfl, Res.ok_bind, h3, Res.ok_bind, h4, Res.ok_bind]
      exact discloseAll_ok.mpr hr

theorem aligned_get {α β : Type} {R : α → β → Prop} {as : List α} {bs : List β} (h : Aligned R as bs) : ∀ {i : Nat} {a b}, as[i]? = some a → bs[i]? = some b → R a b := by
  induction h with
  | nil => simp
  | cons h _ ih =>
    rintro (_ | i) a b ha hb
    · simp only [List.getElem?_cons_zero, Option.some.injEq] at ha hb
      subst ha hb
      exact h
    · exact ih (by simpa using ha) (by simpa using hb)

theorem newWithQb64_isSaid {E : Env} {H : Hash} {t : Str} {s : Matter} (h : Saider.newWithQb64 E H t = .ok s) : IsSaid E H s :=
  ⟨_, _, _, _, _, _, _, _, _, h⟩

theorem shown_top {d : Disclosure} {x : Value} (h : Shown d [] x) : ∃ paths parts, d = .node x paths parts := by
  cases h
  exact ⟨_, _, rfl⟩

/-- C98. Two disclosures that the client has accepted under the same SAID agree on what both show, whatever else either shows or leaves out: documents
reached along the same route are the same map - or, at one place on that route, the two documents shown there have different contents with the same digest. -/
theorem C98_agree {E : Env} {H : Hash} : ∀ {route : List Matter} {s : Matter} {a b : Disclosure} {x y : Value}, IsSaid E H s →
    disclose E H s a = .ok true → disclose E H s b = .ok true → Shown a route x → Shown b route y →
    (∀ r z, Shown a r z → Plain z) → (∀ r z, Shown b r z → Plain z) →
    x = y ∨ ∃ r rest x' y' code, route = r ++ rest ∧ Shown a r x' ∧ Shown b r y' ∧ DocumentsCollide H code x' y'
  | [], s, a, b, x, y, hs, ha, hb, hx, hy, pa, pb => by
    have px := pa _ _ hx
    have py := pb _ _ hy
    obtain ⟨qa, da, rfl⟩ := shown_top hx
    obtain ⟨qb, db, rfl⟩ := shown_top hy
    rcases same_document hs px py (disclose_ok.mp ha).1 (disclose_ok.mp hb).1 with h | h
    · exact .inl h
    · exact .inr ⟨[], [], x, y, _, rfl, .top, .top, h⟩
  | p :: route, s, .node u qa da, .node v qb db, x, y, hs, ha, hb, hx, hy, pa, pb => by
    obtain ⟨va, ha⟩ := disclose_ok.mp ha
    obtain ⟨vb, hb⟩ := disclose_ok.mp hb
    rcases same_document hs (pa _ _ .top) (pb _ _ .top) va vb with rfl | h
    · cases hx with
      | part ix jx hx =>
      cases hy with
      | part iy jy hy =>
      obtain ⟨t, sa, ra, na, ca⟩ := aligned_get (discloseAll_ok.mp ha) ix jx
      obtain ⟨t', sb, rb, nb, cb⟩ := aligned_get (discloseAll_ok.mp hb) iy jy
      have e := Res.ok.inj (ra.symm.trans rb)
      injection e with e
      subst e
      have e := Res.ok.inj (na.symm.trans nb)
      subst e
      rcases C98_agree (newWithQb64_isSaid na) ca cb hx hy (fun r z h => pa _ _ (.part ix jx h)) (fun r z h => pb _ _ (.part iy jy h)) with h | ⟨r, rest, x', y', code, rfl, h1, h2, h3⟩
      · exact .inl h
      · exact .inr ⟨p :: r, rest, x', y', code, rfl, .part ix jx h1, .part iy jy h2, h3⟩
    · exact .inr ⟨[], p :: route, u, v, _, rfl, .top, .top, h⟩

/-- A disclosure made honestly: each document is what `saidify` returned with its SAID, and at each path it holds the text of the SAID of the part shown. -/
inductive Issued (E : Env) (H : Hash) : Matter → Disclosure → Prop
  | node {sad code said doc paths parts saids} (h : Saider.saidify E H sad code none none none = .ok (said, doc))
      (hp : Aligned (fun p s => ∃ t, Matter.qb64 E s = .ok t ∧ Pather.resolve E p doc = .ok (.str t)) paths saids)
      (hl : parts.length = saids.length)
      (hd : ∀ (i : Nat) s d, saids[i]? = some s → parts[i]? = some d → Issued E H s d) : Issued E H said (.node doc paths parts)

theorem issued_isSaid {E : Env} {H : Hash} {s : Matter} {d : Disclosure} (h : Issued E H s d) : IsSaid E H s := by
  cases h with
  | node h _ _ _ => exact C44_reachable h

/-- C98, nothing honest is refused, whichever parts are shown. -/
theorem C98_accepted {E : Env} {H : Hash} {s : Matter} {d : Disclosure} (h : Issued E H s d) : disclose E H s d = .ok true := by
  induction h with
  | @node sad code said doc paths parts saids h hp hl hd ih =>
    refine disclose_ok.mpr ⟨C43_verifies h _ _ (.inl rfl), discloseAll_ok.mpr ?_⟩
    clear h
    induction hp generalizing parts with
    | nil =>
      cases parts with
      | nil => exact .nil
      | cons _ _ => simp at hl
    | @cons p s ps ss hps _ ih' =>
      cases parts with
      | nil => simp at hl
      | cons d ds =>
        obtain ⟨t, ht, hr⟩ := hps
        have hi := hd 0 s d rfl rfl
        obtain ⟨_, _, _, _, _, _, _, _, _, hm⟩ := issued_isSaid hi
        refine .cons ⟨t, s, hr, ((C73_primitives E H []).2.2.1 _ _ _ _ _ _ _ _ _ _ hm t ht).1, ih 0 s d rfl rfl⟩ ?_
        exact ih' (by simpa using hl) (fun i s d h1 h2 => hd (i + 1) s d (by simpa using h1) (by simpa using h2)) (fun i s d h1 h2 => ih (i + 1) s d (by simpa using h1) (by simpa using h2))


/-- The text of a SAID read from a text is what that text begins with. -/
theorem said_text_prefix {E : Env} {H : Hash} {t u : Str} {s : Matter} (h : Saider.newWithQb64 E H t = .ok s) (hu : s.qb64 E = .ok u) : u <+: t := by
  have hm := Saider.constructed h
  have hr := (hm.reads hu).1
  have ht : Matter.ofText E t = .ok s := by
    have e := (C67_typed E H toy none none (some t) none (.text t) rfl).2.2.2.2.2.2.1 none none none
    rw [show Saider.new E H none none none none none none none (some t) none = .ok s from h] at e
    obtain ⟨m, h1, h2⟩ := Res.bind_eq_ok.mp e.symm
    unfold withCode at h2
    split at h2
    · rw [← Res.ok.inj h2]; exact h1
    · cases h2
  obtain ⟨n, hn, _, h2, h3⟩ := C04_text_unique E (s := t) (t := u) ht hr
  obtain ⟨⟨_, _, _, _, _, hnew⟩, _⟩ := Saider.new_matter h
  obtain ⟨z, w⟩ := Matter.new_text_wf hnew hu
  have e : u = Matter.text s z := Res.ok.inj (hu.symm.trans (w.infil E))
  have hl : u.length = n := by
    rw [e, w.text_length]
    exact Res.ok.inj (w.fullSize.symm.trans hn)
  rw [← hl, List.take_length] at h3
  rw [← h3]
  exact List.take_prefix _ _

/-- C98. Every document of an accepted disclosure carries the digest of its own content, and each part is the one whose SAID the document above it holds
at the path given for it (possibly with more text after it, which readers of primitives ignore). -/
theorem C98_named {E : Env} {H : Hash} {s : Matter} {doc : Value} {paths : List Matter} {parts : List Disclosure} (h : disclose E H s (.node doc paths parts) = .ok true) :
    Saider.verify E H s doc (some true) (some true) none none none = .ok true ∧ paths.length = parts.length ∧
    ∀ (i : Nat) p d, paths[i]? = some p → parts[i]? = some d → ∃ t u s' b cs x qs ds, Bexter.bext p = .ok b ∧ Reads b cs ∧ Leads E.usizeBits doc cs (.str t) ∧
      u <+: t ∧ IsSaid E H s' ∧ s'.qb64 E = .ok u ∧ d = .node x qs ds ∧ (∃ o, x = .obj o ∧ o.lookup (lit "d") = some (.str u)) ∧ disclose E H s' d = .ok true := by
  obtain ⟨hv, ha⟩ := disclose_ok.mp h
  refine ⟨hv, ?_, ?_⟩
  · have := discloseAll_ok.mp ha
    clear h hv ha
    induction this with
    | nil => rfl
    | cons _ _ ih => simp [ih]
  · intro i p d hi hj
    obtain ⟨t, s', hr, hn, hd⟩ := aligned_get (discloseAll_ok.mp ha) hi hj
    obtain ⟨b, cs, h1, h2, h3⟩ := (C50_resolve E p doc (.str t)).mp hr
    match d, hd with
    | .node x qs ds, hd =>
      have hs := newWithQb64_isSaid hn
      obtain ⟨o, c, u, ex, hu, _, _, _, hf⟩ := C44_content hs (disclose_ok.mp hd).1
      exact ⟨t, u, s', b, cs, x, qs, ds, h1, h2, h3, said_text_prefix hn hu, hs, hu, rfl, ⟨o, ex, by simpa using hf rfl⟩, hd⟩

/-! ## A concrete disclosure -/

def discloseWho : Value := .obj [(lit "d", .str (lit "EAsp" ++ zeros41)), (lit "name", .str (lit "x"))]
def discloseAge : Value := .obj [(lit "d", .str (lit "EAow" ++ zeros41)), (lit "age", .int 7)]
def discloseRoot : Value :=
  .obj [(lit "v", .str (lit "ACDC10JSON0000bc_")), (lit "d", .str (lit "ECtj" ++ zeros41)),
    (lit "a", .obj [(lit "who", .str (lit "EAsp" ++ zeros41)), (lit "age", .str (lit "EAow" ++ zeros41))])]

def discloseSaid (a b : UInt8) : Matter := ⟨lit "E", 0, a :: b :: List.replicate 30 0⟩
/-- The path `-a-who`. -/
def pathWho : Matter := ⟨lit "5A", 2, [15, 154, 251, 8, 104]⟩
/-- The path `-a-1`. -/
def pathAge : Matter := ⟨lit "4A", 1, [249, 175, 181]⟩

def discloseBoth : Disclosure := .node discloseRoot [pathWho, pathAge] [.node discloseWho [] [], .node discloseAge [] []]
def discloseOne : Disclosure := .node discloseRoot [pathAge] [.node discloseAge [] []]

/-- The premises of `C98_accepted` and of `C98_agree` are met, the latter with two different disclosures of one document. -/
theorem sample_disclosed :
    Pather.newWithPath Env.debug (.arr [.str (lit "a"), .str (lit "who")]) = .ok pathWho ∧ Pather.newWithPath Env.debug (.arr [.str (lit "a"), .int 1]) = .ok pathAge ∧
    Issued Env.debug addingHash (discloseSaid 43 99) discloseBoth ∧ Issued Env.debug addingHash (discloseSaid 43 99) discloseOne ∧
    Shown discloseBoth [pathAge] discloseAge ∧ Shown discloseOne [pathAge] discloseAge ∧
    (∀ r z, Shown discloseBoth r z → Plain z) := by
  have hw : Issued Env.debug addingHash (discloseSaid 11 41) (.node discloseWho [] []) :=
    .node (sad := discloseWho) (code := none) (saids := []) (by kernel_rfl) .nil rfl (by simp)
  have ha : Issued Env.debug addingHash (discloseSaid 10 48) (.node discloseAge [] []) :=
    .node (sad := discloseAge) (code := none) (saids := []) (by kernel_rfl) .nil rfl (by simp)
  have hr : Saider.saidify Env.debug addingHash discloseRoot none none none none = .ok (discloseSaid 43 99, discloseRoot) := by kernel_rfl
  have pw : ∃ t, Matter.qb64 Env.debug (discloseSaid 11 41) = .ok t ∧ Pather.resolve Env.debug pathWho discloseRoot = .ok (.str t) :=
    ⟨lit "EAsp" ++ zeros41, by kernel_rfl, by kernel_rfl⟩
  have pa : ∃ t, Matter.qb64 Env.debug (discloseSaid 10 48) = .ok t ∧ Pather.resolve Env.debug pathAge discloseRoot = .ok (.str t) :=
    ⟨lit "EAow" ++ zeros41, by kernel_rfl, by kernel_rfl⟩
  refine ⟨by kernel_rfl, by kernel_rfl, ?_, ?_, .part (i := 1) rfl rfl .top, .part (i := 0) rfl rfl .top, ?_⟩
  · refine .node (code := none) (saids := [discloseSaid 11 41, discloseSaid 10 48]) hr (.cons pw (.cons pa .nil)) rfl ?_
    rintro (_ | _ | i) s d h1 h2
    · simp at h1 h2; subst h1 h2; exact hw
    · simp at h1 h2; subst h1 h2; exact ha
    · simp at h1
  · refine .node (code := none) (saids := [discloseSaid 10 48]) hr (.cons pa .nil) rfl ?_
    rintro (_ | i) s d h1 h2
    · simp at h1 h2; subst h1 h2; exact ha
    · simp at h1
  · intro r z h
    cases h with
    | top => simp [discloseRoot, Plain, PlainFields, lit]
    | @part _ _ _ _ _ _ _ i h1 h2 h =>
      match i, h1, h2 with
      | 0, h1, h2 =>
        simp at h2; subst h2
        cases h with
        | top => simp [discloseWho, Plain, PlainFields, lit]
        | part h1 => simp at h1
      | 1, h1, h2 =>
        simp at h2; subst h2
        cases h with
        | top => simp [discloseAge, Plain, PlainFields, lit]
        | part h1 => simp at h1
      | i + 2, h1, h2 => simp at h2

/-- A part shown at the path of another one, and a part with another content, are refused. -/
theorem sample_not_disclosed :
    disclose Env.debug addingHash (discloseSaid 43 99) (.node discloseRoot [pathWho] [.node discloseAge [] []]) = .ok false ∧
    disclose Env.debug addingHash (discloseSaid 43 99)
      (.node discloseRoot [pathAge] [.node (.obj [(lit "d", .str (lit "EAow" ++ zeros41)), (lit "age", .int 8)]) [] []]) = .ok false := by
  refine ⟨by kernel_rfl, by kernel_rfl⟩

end Cesride
