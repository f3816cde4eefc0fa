import Verif.Props.Attached
import Verif.Lemmas.Incept
import Verif.Lemmas.Builds

/-! # Property C109, continued: receipts, exceptions and examples -/

namespace Cesride
namespace Builder
open Common Spec

theorem hexStr_ascii (n : Nat) : Ascii (hexStr n) := by
  induction n using Nat.strongRecOn with
  | _ n ih =>
    have hc : ∀ k : Nat, k < 16 → (hexChar k).toNat < 128 := by decide +kernel
    by_cases h : n < 16
    · rw [hexStr_lt h]
      intro c hc'
      simp only [List.mem_singleton] at hc'
      subst hc'
      exact hc n h
    · rw [hexStr_ge (by omega)]
      intro c hc'
      rcases List.mem_append.mp hc' with hc' | hc'
      · exact ih _ (by omega) c hc'
      · simp only [List.mem_singleton] at hc'
        subst hc'
        exact hc _ (by omega)

/-- The entries of a receipt, in order. -/
def receiptEntries (vs d i sn : Str) : List (Str × Value) :=
  [(lit "v", .str vs), (lit "t", .str (lit "rct")), (lit "d", .str d), (lit "i", .str i), (lit "s", .str sn)]

theorem receipt_eq {E : Env} (F : Str → Option Str) (H : Hash) {sn : Nat} (hsn : sn < 2 ^ 128) (pre said : Str) (version : Option Version) (kind : Option Str) :
    receipt E F H pre sn said version kind = (do
      let vs ← versify none (some (version.getD currentVersion)) (some (kind.getD (lit "JSON"))) (some 0)
      Serder.new E F H none none none (some (.obj (receiptEntries vs said pre (hexStr sn)))) none) := by
  obtain ⟨m, h1, _, h3⟩ := num_build E hsn
  unfold receipt
  rw [h1]
  simp only [Res.ok_bind]
  rw [h3]
  simp only [Res.ok_bind]
  rfl

/-- C109. A receipt shows the identifier, the sequence number and the SAID it was made with, and is read back from its bytes, whatever text follows. -/
theorem C109_receipt {E : Env} {F : Str → Option Str} {H : Hash} {pre said : Str} {sn : Nat} {version : Option Version} {kind : Option Str} {s : Sadder} (hsn : sn < 2 ^ 128)
    (h : receipt E F H pre sn said version kind = .ok s) :
    (∃ vs n, s.ked = .obj (receiptEntries vs said pre n) ∧ VersionText vs (lit "KERI") 1 0 (lit "JSON") (s.raw.length % 2 ^ 32) ∧ CanonicalHex n sn) ∧ s.raw = s.ked.toJson ∧
    Serder.pre s = .ok pre ∧ Serder.sn E s = .ok sn ∧ Serder.est s = .ok false ∧ Matter.ofText E said = .ok s.saider ∧ s.saider.code = lit "E" ∧
    (utf8Valid pre = true → utf8Valid said = true → s.raw.length < 2 ^ 32 → ∀ tail, utf8Valid tail = true → Serder.newWithRaw E F H (s.raw ++ tail) = .ok s) := by
  rw [receipt_eq F H hsn] at h
  obtain ⟨vs, hvs, h⟩ := Res.bind_eq_ok.mp h
  obtain ⟨h1, h2⟩ := Serder.new_ok.mp h
  obtain ⟨r, m, h3, h4, h5, h6⟩ := Sadder.new_ked_ok.mp h1
  obtain ⟨rest, hr⟩ : ∃ rest, ∀ vs, receiptEntries vs said pre (hexStr sn) = (lit "v", .str vs) :: rest := ⟨_, fun _ => rfl⟩
  rw [hr] at h3
  obtain ⟨w, j, sz, e, t1, t2, -, t4, t5⟩ := sizeify_first.mp h3
  injection e with e
  subst e
  have hj : j = lit "KERI" := by rw [h6, t5] at h2; exact h2
  subst hj
  have hmt := mkVs_text t2 t4
  obtain ⟨o, t, n, e1, e2, e3, _⟩ := Sadder.saiderOf_ok.mp h4
  have hked : s.ked = .obj (receiptEntries (mkVs (lit "KERI") ((Value.obj ((lit "v", Value.str vs) :: rest)).toJson.length % 2 ^ 32)) said pre (hexStr sn)) := by rw [h6, t5, hr]
  have hraw : s.raw = s.ked.toJson := by rw [h6, t5]
  have hlen : s.raw.length = (Value.obj ((lit "v", Value.str vs) :: rest)).toJson.length := by
    rw [hraw, hked, hr]; exact toJson_first_length hmt t1
  have ht : t = said := by
    rw [t5] at e1
    injection e1 with e1
    subst e1
    rw [← hr] at e2
    injection e2 with e2
    injection e2 with e2
    exact e2.symm
  subst ht
  have hsaid : s.saider = m := by rw [h6]
  have hidx : ∀ l x, (receiptEntries (mkVs (lit "KERI") ((Value.obj ((lit "v", Value.str vs) :: rest)).toJson.length % 2 ^ 32)) t pre (hexStr sn)).lookup l = some x → s.ked.index l = .ok x :=
    fun l x hl => Sadder.index_ok.mpr ⟨_, hked, hl⟩
  refine ⟨⟨_, _, hked, by rw [hlen]; exact hmt, hexStr_canonical sn⟩, hraw, ?_, ?_, ?_, by rw [hsaid]; exact e3, by rw [hsaid]; exact h5, ?_⟩
  · rw [Serder.pre, hidx (lit "i") (.str pre) rfl]; rfl
  · rw [Serder.sn, Serder.sner, hidx (lit "s") (.str (hexStr sn)) rfl, Res.ok_bind]
    obtain ⟨y, y1, y2, _⟩ := num_build E hsn
    have : Number.new E none (some (hexStr sn)) none none none none none = .ok y := ((C28_number_hex E (hexStr sn)).2.1 sn (hexNumeral_of_canonical (hexStr_canonical sn)) hsn).trans y1
    show (do let m ← Number.new E none (some (hexStr sn)) none none none none none; Number.num m) = _
    rw [this, Res.ok_bind, y2]
  · rw [Serder.est, hidx (lit "t") (.str (lit "rct")) rfl]; rfl
  · intro u1 u2 hl tail htail
    have hx : ∀ x, receiptEntries x t pre (hexStr sn) = (lit "v", .str x) :: [(lit "t", .str (lit "rct")), (lit "d", .str t), (lit "i", .str pre), (lit "s", .str (hexStr sn))] := fun _ => rfl
    have uv : utf8Valid vs = true := by
      exact utf8Valid_ascii (versionText_ascii t1)
    have uh : utf8Valid (hexStr sn) = true := utf8Valid_ascii (hexStr_ascii sn)
    rw [hx] at h
    have := C59_serder h (by simp [Plain, PlainFields, lit]) (by
        rw [floatsRead_obj]; intro e he t ht
        simp only [List.mem_cons, List.not_mem_nil, or_false] at he
        rcases he with rfl | rfl | rfl | rfl | rfl <;> cases ht)
      (by simp only [Utf8Value, Utf8Fields, u1, u2, uv, uh, and_true, true_and]; decide +kernel) (by simp [depth, depthFields]) hl tail
    rw [if_pos htail] at this
    exact this

/-- C109. There is a receipt for every identifier, sequence number and SAID of the default code, as long as it stays below 16 MiB. -/
theorem C109_receipt_accepts {E : Env} (F : Str → Option Str) (H : Hash) {pre said : Str} {sn : Nat} {version : Option Version} {kind : Option Str} {d : Matter} (hsn : sn < 2 ^ 128)
    (hv : version.getD currentVersion = currentVersion) (hk : kind.getD (lit "JSON") = lit "JSON") (hd : Matter.ofText E said = .ok d) (hc : d.code = lit "E")
    (hl : (Value.obj (receiptEntries (lit "KERI10JSON000000_") said pre (hexStr sn))).toJson.length < 2 ^ 24) : ∃ s, receipt E F H pre sn said version kind = .ok s := by
  have hvs : versify none (some currentVersion) (some (lit "JSON")) (some 0) = .ok (lit "KERI10JSON000000_") := by decide +kernel
  have hvt : VersionText (lit "KERI10JSON000000_") (lit "KERI") 1 0 (lit "JSON") 0 := sample_text (by decide +kernel)
  rw [receipt_eq F H hsn, hv, hk, hvs, Res.ok_bind]
  obtain ⟨rest, hr⟩ : ∃ rest, ∀ vs, receiptEntries vs said pre (hexStr sn) = (lit "v", .str vs) :: rest := ⟨_, fun _ => rfl⟩
  rw [hr] at hl ⊢
  obtain ⟨ms, hms⟩ : ∃ n, (d.code, n) ∈ digestSizes := Prefixer.digestCodes_iff.mp (Prefixer.digestPrefixes_iff.mp (by rw [hc]; decide +kernel))
  refine ⟨_, Serder.new_ok.mpr ⟨Sadder.new_ked_ok.mpr ⟨_, d, (sizeify_first (r := _)).mpr ⟨_, lit "KERI", 0, rfl, hvt, by decide +kernel, rfl, ?_, rfl⟩,
    Sadder.saiderOf_ok.mpr ⟨_, said, ms, rfl, ?_, hd, hms⟩, hc, rfl⟩, rfl⟩⟩
  · rw [Nat.mod_eq_of_lt (by omega)]; exact hl
  · rw [← hr]; rfl

/-- C109, exceptions. Signatures that are not indexed are dropped without notice, and so is a seal when there are no signatures of the controller; empty lists of signatures pass
for signatures. -/
theorem C109_dropped_defect (E : Env) {s : Sadder} (hu : utf8Valid s.raw = true) :
    (∀ sealed c, messagize E s none sealed none (some c) = .ok s.raw) ∧
    (∀ sealed w c, messagize E s none sealed (some w) c = messagize E s none none (some w) none) ∧
    (∀ w c, messagize E s none none (some w) c = messagize E s none none (some w) none) ∧
    messagize E s (some []) none none none = .ok (s.raw ++ lit "-AAA") := by
  have h0 : fromUtf8 s.raw = .ok s.raw := by rw [fromUtf8, if_pos hu]
  obtain ⟨t, ht⟩ : ∃ t, counterText E (lit "-A") 0 = .ok t ∧ t = lit "-AAA" := ⟨_, by kernel_rfl, rfl⟩
  refine ⟨fun _ _ => ?_, fun _ _ _ => ?_, fun _ _ => ?_, ?_⟩
  · simp [messagize, h0, controllerText, witnessText]
  · simp [messagize, h0, controllerText]
  · simp [messagize, h0, controllerText]
  · obtain ⟨h1, rfl⟩ := ht
    simp [messagize, h0, controllerText, witnessText, sealText, sigerTexts, h1]

/-- C109, exception: the identifier and the digest of a seal are written as they are; a message can be made that is not read. -/
theorem C109_seal_defect (E : Env) {F : Str → Option Str} {H : Hash} {s : Sadder} (hread : ∀ tail, utf8Valid tail = true → Serder.newWithRaw E F H (s.raw ++ tail) = .ok s)
    (hu : utf8Valid s.raw = true) :
    messagize E s (some []) (some ⟨lit "?", [], [], true⟩) none none = .ok (s.raw ++ lit "-HAB?-AAA") ∧ readMessage E F H (s.raw ++ lit "-HAB?-AAA") = .err .unknownHardage := by
  have h0 : fromUtf8 s.raw = .ok s.raw := by rw [fromUtf8, if_pos hu]
  have h1 : counterText E (lit "-A") 0 = .ok (lit "-AAA") := by kernel_rfl
  have h2 : counterText E (lit "-H") 1 = .ok (lit "-HAB") := by
    unfold counterText
    rw [Counter.new_builds (E := E) (E' := Env.debug)]
    simp only [Counter.qb64_builds (E := E) (E' := Env.debug)]
    kernel_rfl
  constructor
  · simp only [messagize, h0, controllerText, witnessText, sealText, sigerTexts, h2, if_true, Res.ok_bind]
    rw [show ([] : List Siger).length % 2 ^ 32 = 0 from rfl, h1]
    rfl
  · unfold readMessage
    have hsl : slice (s.raw ++ lit "-HAB?-AAA") s.raw.length (s.raw ++ lit "-HAB?-AAA").length = .ok (lit "-HAB?-AAA") := by
      unfold slice
      rw [if_pos ⟨by simp, Nat.le_refl _⟩, List.take_length, List.drop_left]
    rw [hread _ (by decide +kernel), Res.ok_bind, hsl, Res.ok_bind, fromUtf8, if_pos (by decide +kernel), Res.ok_bind]
    have : readGroups E H (lit "-HAB?-AAA").length (lit "-HAB?-AAA") = .err .unknownHardage := by kernel_rfl
    rw [this]
    rfl

/-! ## Examples -/

theorem sample_new : Serder.new Env.debug (fun _ => none) zeroHash none none none (some (.obj ((lit "v", .str (lit "KERI10JSON000000_")) :: sampleRest))) none = .ok sampleSigned := by
  kernel_rfl

theorem sample_reads (tail : Str) (h : utf8Valid tail = true) : Serder.newWithRaw Env.debug (fun _ => none) zeroHash (sampleSigned.raw ++ tail) = .ok sampleSigned := by
  have := C59_serder sample_new (by simp [Plain, PlainFields, PlainElems, lit, sampleRest, keyTexts]) (floatsRead_of_noFloats _ (by decide +kernel))
    (by simp [Utf8Value, Utf8Fields, Utf8Elems, sampleRest, keyTexts]; decide +kernel) (by decide +kernel) (by decide +kernel) tail
  rw [if_pos h] at this
  exact this

theorem sample_genuine : ∀ x ∈ [sigA, sigB], Genuine Env.debug x := by
  intro x hx
  simp only [List.mem_cons, List.not_mem_nil, or_false] at hx
  rcases hx with rfl | rfl
  · exact (signIndexed_obtained (C65_generated Env.debug toy 1 none .ed25519) (ser := []) (r := 3) (only := false) (index := 0) (ondex := none) (sig := sigA) (by decide +kernel)).2
  · exact (signIndexed_obtained (C65_generated Env.debug toy 2 none .k1) (ser := []) (r := 4) (only := false) (index := 1) (ondex := none) (sig := sigB) (by decide +kernel)).2

/-- The seal of an event of another identifier. -/
def sampleSeal (last : Bool) : Seal := ⟨lit "DAEBAQEBAQEBAQEBAQEBAQEBAQEBAQEBAQEBAQEBAQEB", lit "1f", zeroSaid, last⟩

theorem sample_readable (last : Bool) : Readable Env.debug (sampleSeal last) := by
  refine ⟨⟨signerA.verfer, (verfer_obtained ⟨1, none, _, none, none, none, none, C65_generated Env.debug toy 1 none .ed25519⟩).1, by kernel_rfl⟩, fun _ =>
    ⟨⟨lit "E", 0, List.replicate 32 0⟩, .text (s := zeroSaid) (n := 44) (by decide +kernel) (by decide +kernel) (by decide +kernel), by decide +kernel, by kernel_rfl⟩⟩

/-- The premises of `C109_written` and `C109_read` are met: an event with a seal, signatures of the controller and of a witness. -/
theorem C109_example (last : Bool) : ∃ m gs, messagize Env.debug sampleSigned (some [sigA, sigB]) (some (sampleSeal last)) (some [sigA]) none = .ok m ∧
    ControllerGroup Env.debug (some [sigA, sigB]) (some (sampleSeal last)) gs ∧
    readMessage Env.debug (fun _ => none) zeroHash (m ++ lit "{") = .ok { event := sampleSigned, groups := gs ++ [.witness [bare sigA]], left := lit "{" } := by
  have hs : ∀ sigs, some [sigA, sigB] = some sigs → (∀ x ∈ sigs, Genuine Env.debug x) ∧ sigs.length < 2 ^ 32 := by
    rintro _ ⟨⟩; exact ⟨sample_genuine, by decide⟩
  have hw : ∀ sigs, some [sigA] = some sigs → (∀ x ∈ sigs, Genuine Env.debug x) ∧ sigs.length < 2 ^ 32 := by
    rintro _ ⟨⟩; exact ⟨fun x hx => sample_genuine x (by simp only [List.mem_singleton] at hx; simp [hx]), by decide⟩
  have hseal : ∀ x, some (sampleSeal last) = some x → Readable Env.debug x := by rintro _ ⟨⟩; exact sample_readable last
  have hnum : HexNumeral (lit "1f") 31 := ⟨[], lit "1f", [1, 15], rfl, .inl rfl, by decide, ⟨by decide, by decide, trivial⟩, rfl⟩
  obtain ⟨m, hm⟩ := (C109_written (s := sampleSigned) (cigars := none) (by decide +kernel) hs hw hseal).1.mpr
    ⟨by simp, fun _ e => by cases e; exact ⟨by decide, fun x hx _ => by cases hx; exact ⟨31, hnum, by decide⟩⟩, fun _ e => by cases e; decide⟩
  obtain ⟨gs, hg, hr⟩ := C109_read (F := fun _ => none) (H := zeroHash) hs hw hseal hm sample_reads
  exact ⟨m, gs, hm, hg, hr (lit "{") (by decide +kernel) (by decide)⟩

/-- The premises of `C109_receipt` and `C109_receipt_accepts` are met. -/
theorem C109_receipt_example (E : Env) (F : Str → Option Str) (H : Hash) : ∃ s, receipt E F H sampleKeyD 16 zeroSaid none none = .ok s :=
  C109_receipt_accepts F H (d := ⟨lit "E", 0, List.replicate 32 0⟩) (by decide) rfl rfl (by kernel_rfl) rfl (by decide +kernel)

end Builder
end Cesride
