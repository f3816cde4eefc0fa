import Verif.Props.Pather
import Verif.Props.Signer

/-!
# Property C105: signatures on parts of documents

A client signs the part of a document a path leads to (`Pather::tail`, then `Signer::sign_unindexed` over the bytes of the text), and another
client checks such a signature (`Pather::tail`, then `Verfer::verify`). Paths are moved with `Pather::root` and `Pather::strip` when the document
is put inside another one.
-/

namespace Cesride
open Spec Pather

/-- Sign the part of `d` the path leads to: `tail`, then `sign_unindexed` (`src/core/pather.rs` 163-176, `src/core/signer.rs` 139-168). -/
def signPart (E : Env) (H : Hash) (C : Crypto) (s : Signer) (p : Matter) (d : Value) (r : Nat) : Res Cigar := do
  let t ← tail E H p d
  Signer.signUnindexed E C s t r

/-- Check a signature on the part of `d` the path leads to: `tail`, then `verify` (`src/core/pather.rs` 163-176, `src/core/verfer.rs` 67-70). -/
def checkPart (E : Env) (H : Hash) (C : Crypto) (v p : Matter) (d : Value) (sig : List UInt8) : Res Bool := do
  let t ← tail E H p d
  Verfer.verify C v sig t

/-! ## Honest signatures -/

/-- C105. Whenever the path has a tail in the document, the part can be signed with every signer the library makes; the signature comes back from
its text and is accepted for the same path and document. -/
theorem C105_accepts (E : Env) (H : Hash) (C : Crypto) {r₀ : Nat} {tr : Option Bool} {code : Option Str} {raw qb64b : Option (List UInt8)} {qb64 : Option Str}
    {qb2 : Option (List UInt8)} {s : Signer} (h : Signer.new E C r₀ tr code raw qb64b qb64 qb2 = .ok s) {p : Matter} {d : Value} {t : Str}
    (ht : tail E H p d = .ok t) (r : Nat) :
    ∃ cig x, signPart E H C s p d r = .ok cig ∧ cig.verfer = s.verfer ∧ cig.matter.qb64 E = .ok x ∧
      Cigar.new E (some s.verfer) none none none (some x) none = .ok cig ∧ checkPart E H C s.verfer p d cig.matter.raw = .ok true := by
  obtain ⟨cig, x, b, h1, h2, h3, h4, _, h6, _⟩ := C53_unindexed_verifies E C h t r
  refine ⟨cig, x, ?_, h2, h4, h6, ?_⟩
  · simp only [signPart, ht, Res.ok_bind]; exact h1
  · simp only [checkPart, ht, Res.ok_bind]; exact h3

/-! ## What a signature binds -/

theorem plain_elem : ∀ {a : List Value} {i : Nat} {x : Value}, PlainElems a → a[i]? = some x → Plain x
  | v :: _, 0, x, h, hx => by simp only [List.getElem?_cons_zero, Option.some.injEq] at hx; subst hx; exact h.1
  | _ :: rest, i + 1, x, h, hx => plain_elem (a := rest) h.2 (by simpa using hx)
  | [], i, x, _, hx => by simp at hx

theorem plain_entry : ∀ {o : List (Str × Value)} {i : Nat} {k : Str} {x : Value}, PlainFields o → o[i]? = some (k, x) → Plain x
  | (k', v) :: _, 0, k, x, h, hx => by
    simp only [List.getElem?_cons_zero, Option.some.injEq, Prod.mk.injEq] at hx; rw [← hx.2]; exact h.1
  | (_, _) :: rest, i + 1, k, x, h, hx => plain_entry (o := rest) h.2 (by simpa using hx)
  | [], i, k, x, _, hx => by simp at hx

theorem plain_lookup : ∀ {o : List (Str × Value)} {k : Str} {x : Value}, PlainFields o → o.lookup k = some x → Plain x
  | (k', v) :: rest, k, x, h, hx => by
    rw [List.lookup_cons] at hx
    split at hx
    · simp only [Option.some.injEq] at hx; rw [← hx]; exact h.1
    · exact plain_lookup (o := rest) h.2 hx
  | [], k, x, _, hx => by simp at hx

/-- A part of a plain document is plain. -/
theorem plain_leads {bits : Nat} {v w : Value} {cs : List Str} (h : Leads bits v cs w) : Plain v → Plain w := by
  induction h with
  | here v => exact id
  | elem _ hx _ ih => intro hp; exact ih (plain_elem (by simpa only [Plain] using hp) hx)
  | entry _ hx _ ih => intro hp; rw [Plain] at hp; exact ih (plain_entry hp.1 hx)
  | key _ _ hx _ ih => intro hp; rw [Plain] at hp; exact ih (plain_lookup hp.1 hx)
  | stop => exact id

theorem plain_resolve {E : Env} {p : Matter} {d w : Value} (h : resolve E p d = .ok w) (hp : Plain d) : Plain w := by
  obtain ⟨_, _, _, _, hl⟩ := (C50_resolve E p d w).mp h
  exact plain_leads hl hp

/-- The text of a primitive does not begin with a brace or bracket. -/
theorem primitive_not_json {s u : Str} {m : Matter} (h : Matter.newWithQb64 s = .ok m) : s ≠ ch '{' :: u ∧ s ≠ ch '[' :: u := by
  have key : ∀ c : UInt8, Matter.hardage c = .err .unknownHardage → s ≠ c :: u := by
    rintro c hc rfl
    have h' : Matter.exfil (c :: u) = .ok m := h
    rw [Matter.exfil] at h'
    obtain ⟨hs, h1, _⟩ := Res.bind_eq_ok.mp h'
    rw [hc] at h1; cases h1
  exact ⟨key _ (by decide +kernel), key _ (by decide +kernel)⟩

/-- C105. The signed text fixes the part: if two paths in two documents have the same tail, they lead to the same value. -/
theorem C105_binds (E : Env) (H : Hash) {p q : Matter} {d d' : Value} {t : Str} (hd : Plain d) (hd' : Plain d') (h : tail E H p d = .ok t)
    (h' : tail E H q d' = .ok t) : ∃ w, resolve E p d = .ok w ∧ resolve E q d' = .ok w := by
  obtain ⟨w, hw, h⟩ := (C64_tail E H p d t).mp h
  obtain ⟨w', hw', h'⟩ := (C64_tail E H q d' t).mp h'
  have hcl : ∀ {v : Value}, ((∃ o, v = .obj o) ∨ (∃ a, v = .arr a)) → ∀ {m : Matter}, Matter.newWithQb64 t = .ok m → t ≠ v.toJson := by
    rintro v (⟨o, rfl⟩ | ⟨a, rfl⟩) m hm
    · rw [Value.toJson]; exact (primitive_not_json hm).1
    · rw [Value.toJson]; exact (primitive_not_json hm).2
  have : w = w' := by
    rcases h with ⟨rfl, m, hm, _⟩ | ⟨hc, he⟩ <;> rcases h' with ⟨rfl, m', hm', _⟩ | ⟨hc', he'⟩
    · rfl
    · exact absurd he' (hcl hc' hm)
    · exact absurd he (hcl hc hm')
    · exact C39_injective (plain_resolve hw hd) (plain_resolve hw' hd') (he.symm.trans he')
  subst this
  exact ⟨w, hw, hw'⟩

/-- C105. What the verdict depends on: where two paths lead to the same value, a signature that is accepted at one place is accepted at the other.
The place is not signed. -/
theorem C105_place (E : Env) (H : Hash) (C : Crypto) {p q : Matter} {d d' w : Value} (h : resolve E p d = .ok w) (h' : resolve E q d' = .ok w) :
    tail E H p d = tail E H q d' ∧ ∀ v sig, checkPart E H C v p d sig = checkPart E H C v q d' sig := by
  have : tail E H p d = tail E H q d' := by simp only [tail, h, h', Res.ok_bind]
  exact ⟨this, fun v sig => by simp only [checkPart, this]⟩

/-- C105. A signature made on the part of one document and accepted for a part of another document: the parts are the same value, or the signature
verifies over two different byte strings. -/
theorem C105_forgery (E : Env) (H : Hash) (C : Crypto) {r₀ : Nat} {tr : Option Bool} {code : Option Str} {raw qb64b : Option (List UInt8)} {qb64 : Option Str}
    {qb2 : Option (List UInt8)} {s : Signer} (h : Signer.new E C r₀ tr code raw qb64b qb64 qb2 = .ok s) {p q : Matter} {d d' : Value} (hd : Plain d)
    (hd' : Plain d') {r : Nat} {cig : Cigar} (hs : signPart E H C s p d r = .ok cig) (hv : checkPart E H C s.verfer q d' cig.matter.raw = .ok true) :
    (∃ w, resolve E p d = .ok w ∧ resolve E q d' = .ok w) ∨
    (∃ t t', tail E H p d = .ok t ∧ tail E H q d' = .ok t' ∧ t ≠ t' ∧ Verfer.verify C s.verfer cig.matter.raw t = .ok true ∧
      Verfer.verify C s.verfer cig.matter.raw t' = .ok true) := by
  obtain ⟨t, ht, hs⟩ := Res.bind_eq_ok.mp hs
  obtain ⟨t', ht', hv⟩ := Res.bind_eq_ok.mp hv
  obtain ⟨cig', _, _, h1, _, h3, _⟩ := C53_unindexed_verifies E C h t r
  rw [hs] at h1; simp only [Res.ok.injEq] at h1; subst h1
  by_cases he : t = t'
  · subst he; exact .inl (C105_binds E H hd hd' ht ht')
  · exact .inr ⟨t, t', ht, ht', he, h3, hv⟩

/-! ## Moving a signed part -/

theorem walk_append {bits : Nat} : ∀ {ds cs : List Str} {D d : Value}, (∀ c ∈ ds, c ≠ []) → walk bits D ds = .ok d → walk bits D (ds ++ cs) = walk bits d cs
  | [], cs, D, d, _, h => by simp only [walk, Res.ok.injEq] at h; subst h; rfl
  | c :: ds, cs, D, d, hn, h => by
    have hc : c ≠ [] := hn c (by simp)
    have ih : ∀ {x : Value}, walk bits x ds = .ok d → walk bits x (ds ++ cs) = walk bits d cs := fun hx => walk_append (fun c h => hn c (by simp [h])) hx
    rw [List.cons_append]
    cases D with
    | obj o =>
      simp only [walk] at h ⊢
      cases hp : parseUsize bits c with
      | ok i =>
        simp only [hp] at h ⊢
        cases ho : o[i]? with
        | none => simp [ho] at h
        | some e => simp only [ho] at h ⊢; exact ih h
      | err e =>
        simp only [hp, if_neg hc] at h ⊢
        cases ho : o.lookup c with
        | none => simp [ho] at h
        | some e => simp only [ho] at h ⊢; exact ih h
      | panic => exact absurd hp (parseUsize_ne_panic _ _)
    | arr a =>
      simp only [walk] at h ⊢
      cases hp : parseUsize bits c with
      | ok i =>
        simp only [hp, Res.ok_bind] at h ⊢
        cases ho : a[i]? with
        | none => simp [ho] at h
        | some e => simp only [ho] at h ⊢; exact ih h
      | err e => simp [hp] at h
      | panic => exact absurd hp (parseUsize_ne_panic _ _)
    | _ => simp [walk] at h

theorem path_ok {p : Matter} {cs : List Str} : path p = .ok (.arr (cs.map .str)) ↔ comps p = .ok cs := by
  constructor
  · intro h
    obtain ⟨ds, hds, h⟩ := Res.bind_eq_ok.mp h
    simp only [Res.ok.injEq, Value.arr.injEq] at h
    have hinj : Function.Injective Value.str := fun x y e => by injection e
    rwa [hinj.list_map h] at hds
  · intro h; simp only [path, h, Res.ok_bind]

theorem comps_clean {p : Matter} {cs : List Str} (h : comps p = .ok cs) : Clean cs := by
  obtain ⟨t, _, hr⟩ := comps_ok.mp h
  rcases hr with ⟨hc, _⟩ | ⟨rfl, _⟩
  · exact hc
  · exact ⟨by simp, by simp⟩

theorem clean_append {ds cs : List Str} (hd : Clean ds) (hc : Clean cs) : Clean (ds ++ cs) := by
  refine ⟨fun c h => ?_, ?_⟩
  · rcases List.mem_append.mp h with h | h
    · exact hd.1 c h
    · exact hc.1 c h
  · cases ds with
    | nil => exact hc.2
    | cons d r => exact hd.2

/-- The components of a path with a root in front. -/
theorem root_comps {E : Env} {p r q : Matter} {cs ds : List Str} (hp : comps p = .ok cs) (hr : comps r = .ok ds) (hq : root E p r = .ok q)
    (hl : (pathText (ds ++ cs)).length < 2 ^ 32) :
    newWithPath E (.arr ((ds ++ cs).map .str)) = .ok q ∧ (pathText (ds ++ cs)).length ≤ 4 * (64 ^ 4 - 1) ∧ comps q = .ok (ds ++ cs) := by
  simp only [root, hp, hr, Res.ok_bind] at hq
  have hlim : (pathText (ds ++ cs)).length ≤ 4 * (64 ^ 4 - 1) := by
    rcases Nat.lt_or_ge (4 * (64 ^ 4 - 1)) (pathText (ds ++ cs)).length with h | h
    · have := C49_too_long E (aligned_strs (ds ++ cs)) (newWithPath_bext hq).1 h hl
      rw [hq] at this; cases this
    · exact h
  exact ⟨hq, hlim, comps_of (built_bext hq hlim) (.inl ⟨clean_append (comps_clean hr) (comps_clean hp), rfl⟩)⟩

/-- C105. A part keeps its signature when its document is put inside another: if the path `r` (without empty components) leads in `D` to `d`, then the path
`p` with the root `r` in front has in `D` the tail that `p` has in `d`, and every signature gets the same verdict there. -/
theorem C105_moved (E : Env) (H : Hash) (C : Crypto) {p r q : Matter} {cs ds : List Str} {D d : Value}
    (hp : path p = .ok (.arr (cs.map .str))) (hr : path r = .ok (.arr (ds.map .str))) (hne : ∀ c ∈ ds, c ≠ []) (hD : resolve E r D = .ok d)
    (hq : root E p r = .ok q) (hl : (pathText (ds ++ cs)).length < 2 ^ 32) :
    path q = .ok (.arr ((ds ++ cs).map .str)) ∧ resolve E q D = resolve E p d ∧ tail E H q D = tail E H p d ∧
      ∀ v sig, checkPart E H C v q D sig = checkPart E H C v p d sig := by
  have cp := path_ok.mp hp
  have cr := path_ok.mp hr
  obtain ⟨_, _, cq⟩ := root_comps cp cr hq hl
  have hres : resolve E q D = resolve E p d := by
    simp only [resolve, cp, cr, cq, Res.ok_bind] at hD ⊢
    exact walk_append hne hD
  have htail : tail E H q D = tail E H p d := by simp only [tail, hres]
  exact ⟨path_ok.mpr cq, hres, htail, fun v sig => by simp only [checkPart, htail]⟩

/-- C105. The moved path exists: two paths built from components that have no hyphens and whose first is not empty can be put together as long as the
text of the whole path is no longer than a path can be. -/
theorem C105_rooted {E : Env} {cs ds : List Str} {p r : Matter} (hp : newWithPath E (.arr (cs.map .str)) = .ok p)
    (hr : newWithPath E (.arr (ds.map .str)) = .ok r) (hc : Clean cs) (hd : Clean ds) (hl : (pathText (ds ++ cs)).length ≤ 4 * (64 ^ 4 - 1)) :
    ∃ q, root E p r = .ok q ∧ newWithPath E (.arr ((ds ++ cs).map .str)) = .ok q := by
  have hb : ∀ c ∈ ds ++ cs, IsB64Text c := by
    intro c h
    rcases List.mem_append.mp h with h | h
    · exact (newWithPath_bext hr).1 c h
    · exact (newWithPath_bext hp).1 c h
  obtain ⟨q, _, _, hq, _⟩ := C49_roundtrip E (aligned_strs (ds ++ cs)) hb hl
  refine ⟨q, ?_, hq⟩
  rw [root, comps_of (built_bext hr (Nat.le_trans (pathText_length_left ds cs) hl)) (.inl ⟨hd, rfl⟩),
    comps_of (built_bext hp (Nat.le_trans (pathText_length_right ds cs) hl)) (.inl ⟨hc, rfl⟩)]
  exact hq

/-- C105. And back: when the components of the root are different and do not occur in the path, `strip` takes the root away from the moved path, and
what is left has in `d` the tail of the moved path in `D`. -/
theorem C105_back (E : Env) (H : Hash) (C : Crypto) {p r q : Matter} {cs ds : List Str} {D d : Value}
    (hp : path p = .ok (.arr (cs.map .str))) (hr : newWithPath E (.arr (ds.map .str)) = .ok r) (hd : Clean ds) (hne : ∀ c ∈ ds, c ≠ [])
    (hn : ds.Nodup) (hdis : ∀ c ∈ ds, c ∉ cs) (hD : resolve E r D = .ok d) (hq : root E p r = .ok q) (hl : (pathText (ds ++ cs)).length < 2 ^ 32) :
    ∃ p', strip E q r = .ok p' ∧ path p' = path p ∧ tail E H p' d = tail E H q D ∧ ∀ v sig, checkPart E H C v p' d sig = checkPart E H C v q D sig := by
  have cp := path_ok.mp hp
  have hlim : (pathText (ds ++ cs)).length ≤ 4 * (64 ^ 4 - 1) ∧ comps r = .ok ds := by
    rcases Nat.lt_or_ge (4 * (64 ^ 4 - 1)) (pathText ds).length with h | h
    · have := C49_too_long E (aligned_strs ds) (newWithPath_bext hr).1 h (Nat.lt_of_le_of_lt (pathText_length_left ds cs) hl)
      rw [hr] at this; cases this
    · have cr : comps r = .ok ds := comps_of (built_bext hr h) (.inl ⟨hd, rfl⟩)
      exact ⟨(root_comps cp cr hq hl).2.1, cr⟩
  obtain ⟨hlim, cr⟩ := hlim
  obtain ⟨hq', _, _⟩ := root_comps cp cr hq hl
  obtain ⟨p', hp', hs, _⟩ := C51_strip_root hq' hr (clean_append hd (comps_clean cp)) (comps_clean cp) hlim hn hdis
  obtain ⟨_, hres, htail, _⟩ := C105_moved E H C hp (path_ok.mpr cr) hne hD hq hl
  have cp' : comps p' = .ok cs :=
    comps_of (built_bext hp' (Nat.le_trans (pathText_length_right ds cs) hlim)) (.inl ⟨comps_clean cp, rfl⟩)
  have ht : tail E H p' d = tail E H q D := by
    rw [htail]; simp only [tail, resolve, cp, cp']
  exact ⟨p', hs, by simp only [path, cp, cp'], ht, fun v sig => by simp only [checkPart, ht]⟩

/-! ## The exceptions -/

/-- A document with another one inside. -/
def sampleOuter : Value := .obj [(lit "a", .obj [(lit "b", .arr [])]), (lit "b", .obj [(lit "a", .null)])]

/-- C105, the defects: an empty component inside the root makes the moved path stop there, so it leads to the map `{"b":[]}` and not, as the path did in that
map, to the list in it; and a root whose component occurs again in the path is not taken away by `strip`: what is left leads elsewhere. -/
theorem C105_defect :
    (do let p ← samplePath [lit "b"]; let r ← samplePath [lit "a", []]; let q ← root Env.debug p r
        let d ← resolve Env.debug r sampleOuter; let x ← resolve Env.debug p d; let y ← resolve Env.debug q sampleOuter
        Res.ok (x.toJson, y.toJson)) = .ok (lit "[]", lit "{\"b\":[]}") ∧
    (do let p ← samplePath [lit "b", lit "a"]; let r ← samplePath [lit "a"]; let q ← root Env.debug p r; let p' ← strip Env.debug q r
        let x ← resolve Env.debug p sampleOuter; let y ← resolve Env.debug p' sampleOuter
        Res.ok (x.toJson, y.toJson)) = .ok (lit "null", lit "[]") := by
  constructor <;> decide +kernel

/-! ## Concrete cases -/

/-- A credential inside a message. -/
def sampleCred : Value := .obj [(lit "v", .str (lit "x")), (lit "d", .arr [.int 7])]

example : Plain sampleCred ∧ Plain (.obj [(lit "e", .arr [sampleCred])]) := by
  simp only [sampleCred, Plain, PlainFields, PlainElems]; decide +kernel

/-- A path in the credential, the root that leads to the credential in the message, and the moved path: the hypotheses of C105_moved and C105_back hold. -/
example : ∃ p r q, path p = .ok (.arr ([lit "d"].map .str)) ∧ newWithPath Env.debug (.arr ([lit "e", lit "0"].map .str)) = .ok r ∧
    resolve Env.debug r (.obj [(lit "e", .arr [sampleCred])]) = .ok sampleCred ∧ root Env.debug p r = .ok q ∧
    Clean [lit "e", lit "0"] ∧ [lit "e", lit "0"].Nodup ∧ (∀ c ∈ [lit "e", lit "0"], c ≠ [] ∧ c ∉ [lit "d"]) ∧
    (∀ H, tail Env.debug H q (.obj [(lit "e", .arr [sampleCred])]) = .ok (lit "[7]")) := by
  have hc : Clean [lit "d"] := by unfold Clean; decide +kernel
  have hd : Clean [lit "e", lit "0"] := by unfold Clean; decide +kernel
  obtain ⟨p, _, _, hp, _, _, _, _, _, _, _, _, hp'⟩ := C49_roundtrip Env.debug (aligned_strs [lit "d"]) (by unfold IsB64Text; decide +kernel) (by decide +kernel)
  obtain ⟨r, _, _, hr, _, _, _, _, _, _, _, _, hr'⟩ := C49_roundtrip Env.debug (aligned_strs [lit "e", lit "0"]) (by unfold IsB64Text; decide +kernel) (by decide +kernel)
  obtain ⟨q, hq, _⟩ := C105_rooted hp hr hc hd (by decide +kernel)
  have hD : resolve Env.debug r (.obj [(lit "e", .arr [sampleCred])]) = .ok sampleCred :=
    ((C50_built hr hd (by decide +kernel) _).1 _).mpr (walk_ok.mp (by rfl))
  refine ⟨p, r, q, hp'.mpr hc, hr, hD, hq, hd, by decide +kernel, by decide +kernel, fun H => ?_⟩
  rw [(C105_moved Env.debug H toy (hp'.mpr hc) (hr'.mpr hd) (by decide +kernel) hD hq (by decide +kernel)).2.2.1]
  refine (C64_tail _ _ _ _ _).mpr ⟨.arr [.int 7], ((C50_built hp hc (by decide +kernel) _).1 _).mpr (walk_ok.mp (by rfl)), .inr ⟨.inr ⟨_, rfl⟩, ?_⟩⟩
  decide +kernel

/-- A signature on that part is accepted. -/
example (H : Hash) : ∃ s p cig, Signer.new Env.debug toy 5 none none none none none none = .ok s ∧
    signPart Env.debug H toy s p sampleCred 3 = .ok cig ∧ checkPart Env.debug H toy s.verfer p sampleCred cig.matter.raw = .ok true := by
  obtain ⟨p, _, _, hp, _⟩ := C49_roundtrip Env.debug (aligned_strs [lit "d"]) (by unfold IsB64Text; decide +kernel) (by decide +kernel)
  have ht : tail Env.debug H p sampleCred = .ok (lit "[7]") :=
    (C64_tail _ _ _ _ _).mpr ⟨.arr [.int 7], ((C50_built hp (by unfold Clean; decide +kernel) (by decide +kernel) _).1 _).mpr (walk_ok.mp (by rfl)),
      .inr ⟨.inr ⟨_, rfl⟩, by decide +kernel⟩⟩
  have hs := C65_generated Env.debug toy 5 none .ed25519
  obtain ⟨cig, _, h1, _, _, _, h2⟩ := C105_accepts Env.debug H toy hs ht 3
  exact ⟨_, p, cig, hs, h1, h2⟩

end Cesride
