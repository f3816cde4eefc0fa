import Verif.Props.Delegation
import Verif.Props.Graph

/-! # Property C120: credentials issued by an identifier

A credential names its issuer by his identifier. He issues it by anchoring (C115) the SAID of the credential in his history. A receiver that has the history and the bytes of a credential demands that
both belong together; a receiver of a chain of credentials demands in addition that each is issued by the one the credential before it is about. These programs of a receiver and of an issuer are part
of the statement; everything they call is the model of the library. -/

namespace Cesride
namespace Builder
open Common Spec Tholder R32

variable {E : Env} {F : Str → Option Str} {H : Hash} {C : Crypto}

/-- The fields of a credential: version string, SAID, issuer, schema, what it is about, and the credentials it rests on, if any. -/
def credentialEntries (vs d i schema : Str) (subject : Value) (edges : Option Value) : List (Str × Value) :=
  [(lit "v", .str vs), (lit "d", .str d), (lit "i", .str i), (lit "s", .str schema), (lit "a", subject)] ++
    match edges with
    | some e => [(lit "e", e)]
    | none => []

/-- An issuer with a history makes a credential. -/
def credential (E : Env) (F : Str → Option Str) (H : Hash) (event : Sadder) (schema : Str) (subject : Value) (edges : Option Value) : Res Sadder := do
  let i ← Serder.pre event
  let vs ← versify (some (lit "ACDC")) none none none
  let (_, crd) ← Saider.saidify E H (.obj (credentialEntries vs [] i schema subject edges)) none none none none
  Creder.newWithKed E F H crd none none

/-- The seal of a credential: its SAID. -/
def credentialSeal (E : Env) (c : Sadder) : Res Value := do
  let d ← c.said E
  .ok (.obj [(lit "d", .str d)])

/-- A receiver that has the history of an issuer (the latest event first) reads a credential. The identifier of a history is that of its first event. -/
def acceptCredential (E : Env) (F : Str → Option Str) (H : Hash) (history : List Sadder) (bytes : List UInt8) : Res Sadder :=
  match history.getLast? with
  | none => .err .validation
  | some first => do
    let c ← Creder.newWithRaw E F H bytes
    let genuine ← Saider.verify E H c.saider c.ked (some true) (some true) none none none
    let issuer ← Creder.issuer c
    let i ← Serder.pre first
    let v ← credentialSeal E c
    if genuine && decide (issuer = i) && history.any (carries · v) then .ok c else .err .validation

/-- Whom a credential is about: the text at `i` of its subject. -/
def holder (c : Sadder) : Res Str := do
  let a ← Creder.subject c
  let i ← a.index (lit "i")
  i.toStr

/-- A link of a chain of credentials: the stream of an issuer's events, the number of events after the first, and the bytes of a credential. -/
structure Link where
  stream : List UInt8
  later : Nat
  bytes : List UInt8

/-- A receiver of a chain of credentials: the first one must be issued by an identifier that is trusted, each further one by the one the credential before it is about. -/
def acceptChain (E : Env) (F : Str → Option Str) (H : Hash) (C : Crypto) (trusted : Str) : List Link → Res (List Sadder)
  | [] => .ok []
  | l :: links => do
    let (history, _) ← receive E F H C l.later l.stream
    let c ← acceptCredential E F H history l.bytes
    let issuer ← Creder.issuer c
    if issuer = trusted then do
      match links with
      | [] => .ok [c]
      | _ => do
        let next ← holder c
        let cs ← acceptChain E F H C next links
        .ok (c :: cs)
    else .err .validation

/-- Among the data of an event is an object with the SAID of a credential and nothing else. -/
def Issues (E : Env) (b c : Sadder) : Prop :=
  ∃ d a, c.said E = .ok d ∧ b.ked.index (lit "a") = .ok (.arr a) ∧ .obj [(lit "d", .str d)] ∈ a

/-- A credential carries the right digest of its content. -/
def GenuineCredential (E : Env) (H : Hash) (c : Sadder) : Prop := Saider.verify E H c.saider c.ked (some true) (some true) none none none = .ok true

/-- The history of an identifier and a credential belong together: the credential is genuine, it names the identifier as its issuer, and an event of the history carries its SAID. -/
def Issued (E : Env) (H : Hash) (history : List Sadder) (i : Str) (c : Sadder) : Prop :=
  GenuineCredential E H c ∧ (∃ b, history.getLast? = some b ∧ Serder.pre b = .ok i) ∧ c.ked.index (lit "i") = .ok (.str i) ∧ ∃ b ∈ history, Issues E b c

/-- Links and credentials that make a chain from an identifier. -/
inductive Empowered (E : Env) (F : Str → Option Str) (H : Hash) (C : Crypto) : Str → List Link → List Sadder → Prop
  | none {i} : Empowered E F H C i [] []
  | last {i l history left c} (hh : receive E F H C l.later l.stream = .ok (history, left)) (hc : Creder.newWithRaw E F H l.bytes = .ok c) (hi : Issued E H history i c) :
      Empowered E F H C i [l] [c]
  | more {i l history left c a j links cs} (hh : receive E F H C l.later l.stream = .ok (history, left)) (hc : Creder.newWithRaw E F H l.bytes = .ok c) (hi : Issued E H history i c)
      (ha : c.ked.index (lit "a") = .ok (.obj a)) (hj : a.lookup (lit "i") = some (.str j)) (hne : links ≠ []) (hr : Empowered E F H C j links cs) : Empowered E F H C i (l :: links) (c :: cs)

/-- What is asked of the parts of a credential: valid text, ordinary JSON values, together at most 8 MiB. -/
structure Terms (F : Str → Option Str) (schema : Str) (subject : Value) (edges : Option Value) : Prop where
  text : utf8Valid schema = true
  ordinary : ∀ v ∈ subject :: edges.toList, Ordinary F 126 v
  small : (Value.arr (.str schema :: subject :: edges.toList)).toJson.length ≤ 2 ^ 23

/-! ## Proofs -/

theorem carries_credential {b c : Sadder} {v : Value} (hv : credentialSeal E c = .ok v) : carries b v = true ↔ Issues E b c := by
  unfold credentialSeal at hv
  obtain ⟨d, hd, hv⟩ := Res.bind_eq_ok.mp hv
  obtain rfl := (Res.ok.inj hv).symm
  have heq : ∀ w : Value, Value.eq (.obj [(lit "d", .str d)]) w = true ↔ w = .obj [(lit "d", .str d)] := by
    intro w
    cases w with
    | obj o =>
      simp only [Value.eq, Bool.and_eq_true, beq_iff_eq, Value.obj.injEq]
      constructor
      · rintro ⟨h1, h2⟩
        obtain ⟨x, a1, b1⟩ := eqFields_iff.mp h2 (lit "d") (.str d) (by simp)
        rw [eq_str] at b1
        subst b1
        match o, h1 with
        | [(k, y)], _ =>
          rw [List.lookup_cons] at a1
          split at a1
          · next hk => rw [beq_iff_eq] at hk; subst hk; cases a1; rfl
          · cases a1
      · rintro rfl
        refine ⟨rfl, eqFields_iff.mpr fun k v hm => ?_⟩
        simp only [List.mem_cons, Prod.mk.injEq, List.not_mem_nil, or_false] at hm
        obtain ⟨rfl, rfl⟩ := hm
        exact ⟨_, by simp, eq_str.mpr rfl⟩
    | _ => simp [Value.eq]
  rw [carries_iff]
  constructor
  · rintro ⟨a, ha, w, hw, he⟩
    rw [heq] at he
    subst he
    exact ⟨d, a, hd, ha, hw⟩
  · rintro ⟨d', a, g1, ha, hw⟩
    obtain rfl := Res.ok.inj (g1.symm.trans hd)
    exact ⟨a, ha, _, hw, (heq _).mpr rfl⟩

theorem acceptCredential_ok {history : List Sadder} {bytes : List UInt8} {c : Sadder} :
    acceptCredential E F H history bytes = .ok c ↔ Creder.newWithRaw E F H bytes = .ok c ∧ ∃ i, Issued E H history i c := by
  unfold acceptCredential
  cases hl : history.getLast? with
  | none => simp [Issued, hl]
  | some b =>
    dsimp only
    constructor
    · intro h
      obtain ⟨c', h1, h⟩ := Res.bind_eq_ok.mp h
      obtain ⟨g, h2, h⟩ := Res.bind_eq_ok.mp h
      obtain ⟨i, h3, h⟩ := Res.bind_eq_ok.mp h
      obtain ⟨j, h4, h⟩ := Res.bind_eq_ok.mp h
      obtain ⟨v, h5, h⟩ := Res.bind_eq_ok.mp h
      split at h
      · next hc =>
        obtain rfl := Res.ok.inj h
        simp only [Bool.and_eq_true, decide_eq_true_eq] at hc
        obtain ⟨⟨hg, hij⟩, ha⟩ := hc
        subst hg
        subst hij
        obtain ⟨x, hx, hcx⟩ := List.any_eq_true.mp ha
        unfold Creder.issuer at h3
        obtain ⟨w, h6, h7⟩ := Res.bind_eq_ok.mp h3
        obtain rfl := Sadder.toStr_ok.mp h7
        exact ⟨h1, i, h2, ⟨b, hl, h4⟩, h6, x, hx, (carries_credential h5).mp hcx⟩
      · cases h
    · rintro ⟨h1, i, h2, ⟨b', hb, h4⟩, h6, x, hx, hi⟩
      rw [hl] at hb
      cases hb
      obtain ⟨d, a, hd, _⟩ := id hi
      have h5 : credentialSeal E c = .ok (.obj [(lit "d", .str d)]) := by unfold credentialSeal; rw [hd]; rfl
      have h2 : Saider.verify E H c.saider c.ked (some true) (some true) none none none = .ok true := h2
      rw [h1, Res.ok_bind, h2, Res.ok_bind, Creder.issuer, h6, Res.ok_bind, Sadder.toStr_ok.mpr rfl, Res.ok_bind, h4, Res.ok_bind, h5, Res.ok_bind, if_pos]
      simp only [decide_true, Bool.and_true, Bool.true_and]
      exact List.any_eq_true.mpr ⟨x, hx, (carries_credential h5).mpr hi⟩


theorem issuer_ok {c : Sadder} {i : Str} : Creder.issuer c = .ok i ↔ c.ked.index (lit "i") = .ok (.str i) := by
  unfold Creder.issuer
  constructor
  · intro h
    obtain ⟨w, h6, h7⟩ := Res.bind_eq_ok.mp h
    obtain rfl := Sadder.toStr_ok.mp h7
    exact h6
  · intro h
    rw [h, Res.ok_bind]
    rfl

theorem holder_ok {c : Sadder} {j : Str} : holder c = .ok j ↔ ∃ a, c.ked.index (lit "a") = .ok (.obj a) ∧ a.lookup (lit "i") = some (.str j) := by
  unfold holder Creder.subject
  constructor
  · intro h
    obtain ⟨w, h1, h⟩ := Res.bind_eq_ok.mp h
    obtain ⟨v, h2, h⟩ := Res.bind_eq_ok.mp h
    obtain rfl := Sadder.toStr_ok.mp h
    obtain ⟨o, rfl, h3⟩ := Sadder.index_ok.mp h2
    exact ⟨o, h1, h3⟩
  · rintro ⟨a, h1, h2⟩
    rw [h1, Res.ok_bind, Sadder.index_ok.mpr ⟨a, rfl, h2⟩, Res.ok_bind]
    rfl

theorem acceptChain_ok : ∀ {links : List Link} {i : Str} {cs : List Sadder}, acceptChain E F H C i links = .ok cs ↔ Empowered E F H C i links cs
  | [], i, cs => by
    rw [acceptChain]
    constructor
    · intro h
      obtain rfl := Res.ok.inj h
      exact .none
    · rintro ⟨⟩
      rfl
  | l :: links, i, cs => by
    rw [acceptChain]
    constructor
    · intro h
      obtain ⟨⟨history, left⟩, h1, h⟩ := Res.bind_eq_ok.mp h
      obtain ⟨c, h2, h⟩ := Res.bind_eq_ok.mp h
      obtain ⟨i', h3, h⟩ := Res.bind_eq_ok.mp h
      obtain ⟨h4, j, h5⟩ := acceptCredential_ok.mp h2
      have e1 := Res.ok.inj ((issuer_ok.mp h3).symm.trans h5.2.2.1)
      simp only [Value.str.injEq] at e1
      by_cases hi : i' = i
      · rw [if_pos hi] at h
        rw [← e1, hi] at h5
        cases links with
        | nil =>
          rw [← Res.ok.inj h]
          exact .last h1 h4 h5
        | cons l' ls =>
          dsimp only at h
          obtain ⟨k, h6, h⟩ := Res.bind_eq_ok.mp h
          obtain ⟨cs', h7, h⟩ := Res.bind_eq_ok.mp h
          rw [← Res.ok.inj h]
          obtain ⟨a, ha, hj⟩ := holder_ok.mp h6
          exact .more h1 h4 h5 ha hj (by simp) (acceptChain_ok.mp h7)
      · rw [if_neg hi] at h
        cases h
    · intro h
      cases h with
      | @last _ _ history left c h1 h4 h5 =>
        rw [h1, Res.ok_bind]
        dsimp only
        rw [acceptCredential_ok.mpr ⟨h4, _, h5⟩, Res.ok_bind, issuer_ok.mpr h5.2.2.1, Res.ok_bind, if_pos rfl]
      | @more _ _ history left c a j _ cs h1 h4 h5 ha hj hne hr =>
        rw [h1, Res.ok_bind]
        dsimp only
        rw [acceptCredential_ok.mpr ⟨h4, _, h5⟩, Res.ok_bind, issuer_ok.mpr h5.2.2.1, Res.ok_bind, if_pos rfl]
        cases links with
        | nil => exact absurd rfl hne
        | cons l' ls =>
          dsimp only
          rw [holder_ok.mpr ⟨a, ha, hj⟩, Res.ok_bind, acceptChain_ok.mpr hr, Res.ok_bind]

/-! ## Making a credential -/

theorem credential_d {vs d i schema : Str} {subject : Value} {edges : Option Value} (x : Str) :
    Value.insert (credentialEntries vs d i schema subject edges) (lit "d") (.str x) = credentialEntries vs x i schema subject edges := rfl

theorem credential_le {vs d i schema : Str} {subject : Value} {edges : Option Value} (h1 : vs.length ≤ 100) (h2 : d.length ≤ 100) (h3 : i.length ≤ 100)
    (h6 : (Value.arr (.str schema :: subject :: edges.toList)).toJson.length ≤ 2 ^ 23) : (Value.obj (credentialEntries vs d i schema subject edges)).toJson.length < 2 ^ 24 := by
  have s1 := jsonStr_le vs
  have s2 := jsonStr_le d
  have s3 := jsonStr_le i
  have e : ∀ k : Str, k.length ≤ 3 → (jsonStr k).length ≤ 20 := fun k hk => by have := jsonStr_le k; omega
  have k1 := e (lit "v") (by decide)
  have k3 := e (lit "d") (by decide)
  have k4 := e (lit "i") (by decide)
  have k5 := e (lit "s") (by decide)
  have k13 := e (lit "a") (by decide)
  have k14 := e (lit "e") (by decide)
  have str : ∀ t, (Value.str t).toJson = jsonStr t := fun _ => by simp [Value.toJson]
  have arr : ∀ a, (Value.arr a).toJson = ch '[' :: (elemsJson a ++ [ch ']']) := fun _ => by simp [Value.toJson]
  rw [arr] at h6
  unfold credentialEntries
  rw [show ∀ o : List (Str × Value), (Value.obj o).toJson = ch '{' :: (fieldsJson o ++ [ch '}']) from fun _ => by simp [Value.toJson]]
  cases edges with
  | none =>
    simp only [fieldsJson, elemsJson, Option.toList, List.length_cons, List.length_append, List.length_nil, str, List.append_nil] at h6 ⊢
    omega
  | some e =>
    simp only [fieldsJson, elemsJson, Option.toList, List.length_cons, List.length_append, List.length_nil, str, List.cons_append, List.nil_append] at h6 ⊢
    omega

/-- What `saidify` makes of the fields of a credential. -/
theorem credential_saidified {vs d i schema : Str} {subject : Value} {edges : Option Value} {m : Matter} {sad' : Value}
    (h : Saider.saidify E H (.obj (credentialEntries vs d i schema subject edges)) none none none none = .ok (m, sad')) :
    ∃ vs' t n j, VersionText vs' j 1 0 (lit "JSON") n ∧ m.qb64 E = .ok t ∧ m.code = lit "E" ∧ sad' = .obj (credentialEntries vs' t i schema subject edges) ∧ ∃ z, Matter.Wf m z := by
  obtain ⟨n, z, o, o', t, hcd, hz, ho, hin, hprep, hm, hmq, rfl⟩ := Saider.saidify_ok h
  injection ho with ho
  subst ho
  simp only [Option.getD_none] at hcd hin hprep hm
  have hdum : ∀ k, Saider.dummy k = .str (List.replicate k (ch '#')) := fun _ => rfl
  rw [hdum, credential_d] at hprep
  obtain ⟨r, hr, hrk, _⟩ := Saider.prep_versioned hprep rfl
  obtain ⟨w, j, sz, e, t1, t2, -, t4, t5⟩ := sizeify_first.mp hr
  rw [t5] at hrk
  injection hrk with hrk
  subst hrk
  obtain ⟨z', _, _, wf, _⟩ := digest_matter E H hcd (Value.obj (Saider.removeKeys ((none : Option (List Str)).getD []) ((lit "v", Value.str (mkVs j _)) :: _))).toJson
  exact ⟨_, t, _, j, mkVs_text t2 t4, hmq, by rw [hm], rfl, z', by rw [hm]; exact wf⟩

theorem credential_ordinary {vs d i schema : Str} {subject : Value} {edges : Option Value} (h : ∀ t ∈ [vs, d, i], Ascii t) (hs : utf8Valid schema = true)
    (hd : ∀ v ∈ subject :: edges.toList, Ordinary F 126 v) : Ordinary F 127 (.obj (credentialEntries vs d i schema subject edges)) := by
  have u : ∀ t ∈ [vs, d, i], utf8Valid t = true := fun t ht => utf8Valid_ascii (h t ht)
  simp only [List.mem_cons, List.not_mem_nil, or_false] at u
  have fixed : ∀ k ∈ [lit "v", lit "d", lit "i", lit "s", lit "a", lit "e"], utf8Valid k = true := by decide +kernel
  refine ordinary_obj (n := 126) ?_ (by unfold credentialEntries; cases edges <;> simp only [List.map_cons, List.map_nil, List.cons_append, List.nil_append, List.append_nil] <;> decide +kernel)
  intro e he
  unfold credentialEntries at he
  rcases List.mem_append.mp he with he | he
  · simp only [List.mem_cons, List.not_mem_nil, or_false] at he
    rcases he with rfl | rfl | rfl | rfl | rfl
    · exact ⟨fixed _ (by simp), ordinary_str F _ (u _ (by simp))⟩
    · exact ⟨fixed _ (by simp), ordinary_str F _ (u _ (by simp))⟩
    · exact ⟨fixed _ (by simp), ordinary_str F _ (u _ (by simp))⟩
    · exact ⟨fixed _ (by simp), ordinary_str F _ hs⟩
    · exact ⟨fixed _ (by simp), hd _ (by simp)⟩
  · cases edges with
    | none => cases he
    | some v =>
      rw [List.mem_singleton] at he
      subst he
      exact ⟨fixed _ (by simp), hd _ (by simp)⟩

/-- A credential can be made, and it is read back. -/
theorem credential_total {e : Sadder} {n : Nat} {i : Str} {schema : Str} {subject : Value} {edges : Option Value} (he : Latest E e n i) (hd : Terms F schema subject edges) :
    ∃ c vs d, credential E F H e schema subject edges = .ok c ∧ c.said E = .ok d ∧ Short d ∧ c.ked = .obj (credentialEntries vs d i schema subject edges) ∧ GenuineCredential E H c ∧
      ∀ tail, Creder.newWithRaw E F H (c.raw ++ tail) = if utf8Valid tail then .ok c else .err .utf8 := by
  have hvs : versify (some (lit "ACDC")) none none none = .ok (lit "ACDC10JSON000000_") := by decide +kernel
  have hvt : VersionText (lit "ACDC10JSON000000_") (lit "ACDC") 1 0 (lit "JSON") 0 := sample_text (by decide +kernel)
  have hsize : ∀ (vs x : Str), vs.length ≤ 100 → x.length ≤ 100 → (Value.obj (credentialEntries vs x i schema subject edges)).toJson.length < 2 ^ 24 :=
    fun vs x h1 h2 => credential_le h1 h2 (by have := he.short.1; omega) hd.small
  obtain ⟨m, sad', hsd⟩ := C43_succeeds_versioned E H (o := (credentialEntries (lit "ACDC10JSON000000_") [] i schema subject edges).tail)
    (code := lit "E") (label := lit "d") (vs := lit "ACDC10JSON000000_") (i := lit "ACDC") (m := 0) (n := 32) none
    (by decide +kernel) (by simp [credentialEntries]) (by decide +kernel) hvt (by decide +kernel) (by
      intro k hk
      exact hsize _ _ (by decide) (by simp; omega))
  have hsd : Saider.saidify E H (.obj (credentialEntries (lit "ACDC10JSON000000_") [] i schema subject edges)) none none none none = .ok (m, sad') := hsd
  obtain ⟨vs, d, sz, j, hv, hq, hc, rfl, z, w⟩ := credential_saidified hsd
  obtain ⟨s, hnew, hsm, hked, hraw, hver⟩ := C45_saidified_creder (F := F) hsd hvt
  have shd : Short d := short_said w hq hc
  have hsaid : s.said E = .ok d := by rw [Sadder.said, hsm]; exact hq
  refine ⟨s, vs, d, ?_, hsaid, shd, hked, hver, fun tail => ?_⟩
  · unfold credential
    rw [he.pre, Res.ok_bind, hvs, Res.ok_bind, hsd, Res.ok_bind]
    exact hnew
  · have hord := credential_ordinary (F := F) (vs := vs) (d := d) (i := i) (by
      intro x hx
      simp only [List.mem_cons, List.not_mem_nil, or_false] at hx
      rcases hx with rfl | rfl | rfl
      · exact versionText_ascii hv
      · exact shd.2.2
      · exact he.short.2.2) hd.text hd.ordinary
    have hl : s.raw.length < 2 ^ 32 := by
      rw [hraw]
      exact Nat.lt_trans (hsize _ _ (by have := versionText_length hv; omega) (by have := shd.1; omega)) (by decide)
    exact C59_creder hnew hord.plain hord.floats hord.utf8 (Nat.lt_of_le_of_lt hord.depth (by omega)) hl tail

theorem credential_anchors (F : Str → Option Str) {d : Str} (hd : Short d) : Anchors F [.obj [(lit "d", .str d)]] where
  ordinary := by
    intro v hv
    rw [List.mem_singleton] at hv
    subst hv
    refine ordinary_obj (n := 124) (fun e he => ?_) (by simp only [List.map_cons, List.map_nil]; decide +kernel)
    simp only [List.mem_cons, List.not_mem_nil, or_false] at he
    subst he
    exact ⟨(by decide +kernel : utf8Valid (lit "d") = true), ordinary_str F _ (utf8Valid_ascii hd.2.2)⟩
  small := by
    have s2 := jsonStr_le d
    have s6 := hd.1
    have k3 := jsonStr_le (lit "d")
    have l3 : (lit "d").length = 1 := rfl
    simp only [Value.toJson, elemsJson, fieldsJson, List.length_cons, List.length_append, List.length_nil]
    omega

/-! ## The property -/

/-- C120. What a receiver accepts, from any bytes and with any history: exactly the credentials that the bytes hold, that carry the digest of their content, name the identifier of the history as their
issuer, and whose SAID is anchored in the history. -/
theorem C120_accepted {history : List Sadder} {bytes : List UInt8} {c : Sadder} :
    acceptCredential E F H history bytes = .ok c ↔ Creder.newWithRaw E F H bytes = .ok c ∧ ∃ i, Issued E H history i c := acceptCredential_ok

/-- C120. A chain of any length, from any bytes, is accepted exactly if each of its credentials belongs to the history of its issuer, the first issuer is the one who is trusted, and every further one
is the one that the credential before is about. -/
theorem C120_chain {links : List Link} {i : Str} {cs : List Sadder} : acceptChain E F H C i links = .ok cs ↔ Empowered E F H C i links cs := acceptChain_ok

/-- C120. An identifier can always make a credential with any schema, subject and edges: it shows them as they were given, names the identifier, and is genuine. Before it is issued a receiver refuses
it; with one interaction of at least half of the signers in force it is issued, and from then on a receiver that has the history accepts it from its bytes, whatever valid text follows and whatever
further events. -/
theorem C120_issues {event : Sadder} {earlier : List Sadder} {signers next : List Signer} {stream : Str} (h : Life E F H C (event :: earlier) signers next stream) {schema : Str} {subject : Value}
    {edges : Option Value} (hd : Terms F schema subject edges) :
    ∃ c d i, credential E F H event schema subject edges = .ok c ∧ GenuineCredential E H c ∧ (∀ x ∈ event :: earlier, Serder.pre x = .ok i) ∧
      c.said E = .ok d ∧ Creder.issuer c = .ok i ∧ Creder.schema c = .ok schema ∧ Creder.subject c = .ok subject ∧ Creder.chains c = .ok (edges.getD (.obj [])) ∧
      (∀ history tail, (∃ b, history.getLast? = some b ∧ Serder.pre b = .ok i) → utf8Valid tail = true →
        ((∃ b ∈ history, Issues E b c) → acceptCredential E F H history (c.raw ++ tail) = .ok c) ∧
        (¬ (∃ b ∈ history, Issues E b c) → acceptCredential E F H history (c.raw ++ tail) = .err .validation)) ∧
      ((event :: earlier).length < 2 ^ 128 → ∃ s, interact E F H event [.obj [(lit "d", .str d)]] = .ok s ∧ Issues E s c ∧
        ∀ rnd positions, (∀ j ∈ positions, j < signers.length) → positions.length ≤ 4095 → signers.length ≤ 2 * positions.toFinset.card →
          ∃ m, announce E C rnd signers s positions = .ok m ∧ Life E F H C (s :: event :: earlier) signers next (stream ++ m) ∧
            ∀ more tail, utf8Valid tail = true →
              acceptCredential E F H (more ++ s :: event :: earlier) (c.raw ++ tail) = .ok c) := by
  obtain ⟨e', earlier', i, heq, hi, hall⟩ := life_head h
  injection heq with h1 h2
  subst h1
  subst h2
  obtain ⟨c, vs, d, hc, hsd, shd, hked, hg, hread⟩ := credential_total (F := F) (H := H) hi.latest hd
  have hiss : c.ked.index (lit "i") = .ok (.str i) := by rw [hked]; rfl
  have hseal : credentialSeal E c = .ok (.obj [(lit "d", .str d)]) := by unfold credentialSeal; rw [hsd]; rfl
  have judged : ∀ history tail, (∃ b, history.getLast? = some b ∧ Serder.pre b = .ok i) → utf8Valid tail = true →
        ((∃ b ∈ history, Issues E b c) → acceptCredential E F H history (c.raw ++ tail) = .ok c) ∧
        (¬ (∃ b ∈ history, Issues E b c) → acceptCredential E F H history (c.raw ++ tail) = .err .validation) := by
    intro history tail hb ht
    have hr := hread tail
    rw [if_pos ht] at hr
    refine ⟨fun hs => acceptCredential_ok.mpr ⟨hr, i, hg, hb, hiss, hs⟩, fun hs => ?_⟩
    obtain ⟨b, hb, hp⟩ := hb
    · have hg' : Saider.verify E H c.saider c.ked (some true) (some true) none none none = .ok true := hg
      unfold acceptCredential
      rw [hb]
      dsimp only
      rw [hr, Res.ok_bind, hg', Res.ok_bind, issuer_ok.mpr hiss, Res.ok_bind, hp, Res.ok_bind, hseal, Res.ok_bind, if_neg]
      simp only [decide_true, Bool.and_true, Bool.true_and]
      intro hany
      obtain ⟨x, hx, hcx⟩ := List.any_eq_true.mp hany
      exact hs ⟨x, hx, (carries_credential hseal).mp hcx⟩
  refine ⟨c, d, i, hc, hg, hall, hsd, issuer_ok.mpr hiss, ?_, by rw [Creder.subject, hked]; rfl, ?_, judged, fun hlong => ?_⟩
  · rw [Creder.schema, show c.ked.index (lit "s") = .ok (.str schema) by rw [hked]; rfl]
    rfl
  · rw [(C61_fields hked).2.2.2.2.2.2.2.2.1]
    cases edges <;> rfl
  · obtain ⟨s, i', p, g1, g2, g3, g4, g5, g6, g7, hj⟩ := C115_anchors h (credential_anchors F shd) hlong
    have his : Issues E s c := ⟨d, _, hsd, g6, by simp⟩
    refine ⟨s, g1, his, fun rnd positions hp hl hh => ?_⟩
    obtain ⟨m, hm, _, hlife⟩ := hj rnd positions hp hl
    refine ⟨m, hm, hlife hh, fun more tail ht => ?_⟩
    refine (judged _ tail ?_ ht).1 ⟨s, by simp, his⟩
    have hgl : (more ++ s :: event :: earlier).getLast? = (event :: earlier).getLast? := by
      rw [List.getLast?_append, List.getLast?_cons_cons, List.getLast?_eq_some_getLast (by simp : event :: earlier ≠ [])]
      rfl
    rw [hgl]
    exact ⟨_, List.getLast?_eq_some_getLast (by simp), hall _ (List.getLast_mem _)⟩

/-- C120. What has been issued stays issued as the issuer goes on. -/
theorem C120_stays {history : List Sadder} {bytes : List UInt8} {c : Sadder} (ha : acceptCredential E F H history bytes = .ok c) (more : List Sadder) :
    acceptCredential E F H (more ++ history) bytes = .ok c := by
  obtain ⟨h1, i, hg, ⟨b, hb, hp⟩, hi, y, hy, hs⟩ := acceptCredential_ok.mp ha
  refine acceptCredential_ok.mpr ⟨h1, i, hg, ⟨b, ?_, hp⟩, hi, y, List.mem_append_right _ hy, hs⟩
  rw [List.getLast?_append, hb]
  rfl

/-- C120. Nobody else can issue: whatever bytes are accepted as the next event of the issuer, if a receiver accepts with it a credential that it refused before, then the event carries the SAID of the
credential, and at least half of the signers of the issuer, and not none, have voted for these bytes: of those in force, or, if the event sets keys, of those committed to (or a digest has a collision
with one of their keys). -/
theorem C120_control {history : List Sadder} {now next : List Signer} {stream : Str} (h : Life E F H C history now next stream) {bytes : List UInt8} {s : Sadder} {left : Str}
    (hr : receiveNext E F H C history bytes = .ok (s, left)) {crd : List UInt8} {c : Sadder}
    (hno : acceptCredential E F H history crd ≠ .ok c) (hyes : acceptCredential E F H (s :: history) crd = .ok c) :
    Issues E s c ∧
    ((Serder.est s = .ok true ∧ ∃ voters : List Nat, voters.Nodup ∧ 0 < voters.length ∧ next.length ≤ 2 * voters.length ∧
        ∀ j ∈ voters, ∃ g, next[j]? = some g ∧ (Voted E C g s bytes ∨ KeyCollides E H g)) ∨
     (Serder.est s = .ok false ∧ ∃ voters : List Nat, voters.Nodup ∧ 0 < voters.length ∧ now.length ≤ 2 * voters.length ∧
        ∀ j ∈ voters, ∃ g, now[j]? = some g ∧ Voted E C g s bytes)) := by
  obtain ⟨h1, i, hg, ⟨b, hb, hp⟩, hi, y, hy, hsy⟩ := acceptCredential_ok.mp hyes
  refine ⟨?_, (C116_control h hr).2.2⟩
  cases hy with
  | head => exact hsy
  | tail _ hy =>
    refine absurd (acceptCredential_ok.mpr ⟨h1, i, hg, ?_, hi, y, hy, hsy⟩) hno
    cases history with
    | nil => cases hy
    | cons e es =>
      rw [List.getLast?_cons_cons] at hb
      exact ⟨b, hb, hp⟩

/-- C120. An anchored SAID is that of one credential: two credentials that are read from bytes, are genuine and have the same SAID are the same map, or their contents collide. -/
theorem C120_binds {x y : Sadder} {bx byt : List UInt8} (rx : Creder.newWithRaw E F H bx = .ok x) (ry : Creder.newWithRaw E F H byt = .ok y) (px : Plain x.ked) (py : Plain y.ked)
    (vx : GenuineCredential E H x) (vy : GenuineCredential E H y) (h : x.said E = y.said E) : x.ked = y.ked ∨ ContentsCollide H x y :=
  same_said (creder_isSaid rx) (creder_isSaid ry) px py vx vy h

/-! ## A case -/

theorem example_terms {j : Str} (hj : Short j) : Terms (fun _ => none) (lit "ESchema") (.obj [(lit "i", .str j), (lit "role", .str (lit "officer"))]) none where
  text := by decide +kernel
  ordinary := by
    intro v hv
    rw [Option.toList, List.mem_singleton] at hv
    subst hv
    refine ordinary_obj (n := 125) (fun e he => ?_) (by simp only [List.map_cons, List.map_nil]; decide +kernel)
    simp only [List.mem_cons, List.not_mem_nil, or_false] at he
    rcases he with rfl | rfl
    · exact ⟨(by decide +kernel : utf8Valid (lit "i") = true), ordinary_str _ _ (utf8Valid_ascii hj.2.2)⟩
    · exact ⟨(by decide +kernel : utf8Valid (lit "role") = true), ordinary_str _ _ (by decide +kernel)⟩
  small := by
    have s1 := jsonStr_le (lit "ESchema")
    have s2 := jsonStr_le j
    have s3 := jsonStr_le (lit "role")
    have s4 := jsonStr_le (lit "officer")
    have s5 := jsonStr_le (lit "i")
    have s6 := hj.1
    have l1 : (lit "ESchema").length = 7 := rfl
    have l2 : (lit "role").length = 4 := rfl
    have l3 : (lit "officer").length = 7 := rfl
    have l4 : (lit "i").length = 1 := rfl
    simp only [Value.toJson, elemsJson, fieldsJson, Option.toList, List.length_cons, List.length_append, List.length_nil]
    omega

/-- An authority issues a credential about an officer, and the officer one about the authority: the receiver who trusts the authority accepts the chain. With the history of the authority as it was
before, he refuses it. -/
theorem C120_example : ∃ i l l' links cs, cs.length = 2 ∧ acceptChain Env.debug (fun _ => none) zeroHash toy i (l :: links) = .ok cs ∧
    acceptChain Env.debug (fun _ => none) zeroHash toy i (l' :: links) = .err .validation ∧ l'.bytes = l.bytes := by
  obtain ⟨a, am, hfa, _, ha⟩ := C112_starts C111_example (fun _ => none) zeroHash (fun _ => 5) (positions := [0]) (by simp) (by simp) (by simp)
  obtain ⟨a', ea, i, heqa, hi, halla⟩ := life_head ha
  obtain ⟨b, bm, _, _, hb⟩ := C112_starts C111_example (fun _ => none) zeroHash (fun _ => 6) (positions := [1]) (by simp) (by simp) (by simp)
  obtain ⟨b', eb, j, heqb, hj, hallb⟩ := life_head hb
  obtain ⟨c, d, i1, hc, hg, p1, hsd, q1, _, r1, _, x1, t1⟩ := C120_issues ha (example_terms hj.latest.short)
  obtain ⟨s, u1, u2, u3⟩ := t1 (by simp)
  obtain ⟨m, _, hlife, hacc⟩ := u3 (fun _ => 7) [0] (by simp) (by simp) (by simp)
  obtain ⟨c', d', j1, hc', hg', p1', hsd', q1', _, _, _, _, t1'⟩ := C120_issues hb (example_terms hi.latest.short)
  obtain ⟨s', v1, v2, v3⟩ := t1' (by simp)
  obtain ⟨m', _, hlife', hacc'⟩ := v3 (fun _ => 7) [0] (by simp) (by simp) (by simp)
  have r0 := C112_replay ha (left := []) rfl (by simp)
  have r1' := C112_replay hlife (left := []) rfl (by simp)
  have r2 := C112_replay hlife' (left := []) rfl (by simp)
  have ei := Res.ok.inj ((p1 a (by simp)).symm.trans (halla a (by simp)))
  have ej := Res.ok.inj ((p1' b (by simp)).symm.trans (hallb b (by simp)))
  have k1 := hacc [] [] rfl
  have k2 := hacc' [] [] rfl
  obtain ⟨_, i2, w2⟩ := acceptCredential_ok.mp k1
  obtain ⟨_, j2, z2⟩ := acceptCredential_ok.mp k2
  have ei2 := Res.ok.inj ((issuer_ok.mp q1).symm.trans w2.2.2.1)
  have ej2 := Res.ok.inj ((issuer_ok.mp q1').symm.trans z2.2.2.1)
  simp only [Value.str.injEq] at ei2 ej2
  rw [← ei2, ei] at w2
  rw [← ej2, ej] at z2
  refine ⟨i, ⟨(am ++ m) ++ [], 1, c.raw ++ []⟩, ⟨am ++ [], 0, c.raw ++ []⟩, [⟨(bm ++ m') ++ [], 1, c'.raw ++ []⟩], [c, c'], rfl, ?_, ?_, rfl⟩
  · exact acceptChain_ok.mpr (.more r1' (acceptCredential_ok.mp k1).1 w2 r1 rfl (by simp) (.last r2 (acceptCredential_ok.mp k2).1 z2))
  · have hno := (x1 [a] [] ⟨a, rfl, p1 a (by simp)⟩ rfl).2 (by
      rintro ⟨y, hy, _, arr, _, ha', hm'⟩
      rw [List.mem_singleton] at hy
      subst hy
      obtain ⟨o, h1, _, _, h4⟩ := founded_kind C111_example hfa
      rw [Sadder.index_ok.mpr ⟨o, h1, h4⟩] at ha'
      have := Res.ok.inj ha'
      simp only [Value.arr.injEq] at this
      subst this
      cases hm')
    rw [acceptChain]
    have r0' : receive Env.debug (fun _ => none) zeroHash toy 0 (am ++ []) = .ok ([a], []) := r0
    dsimp only
    rw [r0', Res.ok_bind]
    dsimp only
    rw [hno]
    rfl

end Builder
end Cesride
