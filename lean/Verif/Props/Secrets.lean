import Verif.Model.Secrets
import Verif.Props.Signer
import Verif.Lemmas.KernelRfl

/-! # C104: what secrets leave in memory -/

namespace Cesride

open Mem

namespace Spec

/-- Every byte given back is zero. -/
def Blank (freed : List (List UInt8)) : Prop := ∀ b ∈ freed, ∀ x ∈ b, x = 0

/-- Apart from buffers full of zeros, exactly these buffers were given back, in some order. -/
def Leaves (freed left : List (List UInt8)) : Prop := ∃ zs, Blank zs ∧ freed.Perm (zs ++ left)

end Spec

open Spec

/-! ## Outcomes: the memory effects change nothing else -/

namespace Mem

@[simp] theorem lift_res {α : Type} (r : Res α) : (lift r).res = r := rfl
@[simp] theorem lift_freed {α : Type} (r : Res α) : (lift r).freed = [] := rfl
@[simp] theorem dropped_res {α : Type} (b : List UInt8) (x : Mem α) : (dropped b x).res = x.res := rfl
@[simp] theorem during_res {α : Type} (b : List UInt8) (x : Mem α) : (during b x).res = x.res := rfl
@[simp] theorem wiped_res {α : Type} (b : List UInt8) (x : Mem α) : (wiped b x).res = x.res := rfl
@[simp] theorem zeroizing_res {α : Type} (n : Nat) (x : Mem α) : (zeroizing n x).res = x.res := rfl
@[simp] theorem guarding_res {α : Type} (n : Nat) (x : Mem α) : (guarding n x).res = x.res := rfl

@[simp] theorem bind_res {α β : Type} (x : Mem α) (f : α → Mem β) : (x >>= f).res = (x.res >>= fun a => (f a).res) := by
  show (Mem.bind x f).res = _
  unfold Mem.bind
  cases x.res <;> rfl

theorem bind_ok {α β : Type} {x : Mem α} {f : α → Mem β} {b : β} (h : (x >>= f).res = .ok b) :
    ∃ a, x.res = .ok a ∧ (f a).res = .ok b ∧ (x >>= f).freed = x.freed ++ (f a).freed := by
  rw [bind_res] at h
  obtain ⟨a, ha, hb⟩ := Res.bind_eq_ok.mp h
  refine ⟨a, ha, hb, ?_⟩
  show (Mem.bind x f).freed = _
  unfold Mem.bind
  rw [ha]

theorem bind_freed {α β : Type} {x : Mem α} {f : α → Mem β} {a : α} (h : x.res = .ok a) : (x >>= f).freed = x.freed ++ (f a).freed := by
  show (Mem.bind x f).freed = _
  unfold Mem.bind
  rw [h]

theorem bind_freed_err {α β : Type} {x : Mem α} {f : α → Mem β} {e : Err} (h : x.res = .err e) : (x >>= f).freed = x.freed := by
  show (Mem.bind x f).freed = _
  unfold Mem.bind
  rw [h]

/-- A call that, when it succeeds, gives back nothing but zeros. -/
def Tidy {α : Type} (x : Mem α) : Prop := ∀ a, x.res = .ok a → Blank x.freed

theorem blank_nil : Blank [] := by intro b hb; cases hb

theorem blank_append {a b : List (List UInt8)} (ha : Blank a) (hb : Blank b) : Blank (a ++ b) := by
  intro x hx
  rcases List.mem_append.mp hx with h | h
  · exact ha x h
  · exact hb x h

theorem blank_zeros (n : Nat) : Blank [List.replicate n 0] := by
  intro b hb x hx
  rw [List.mem_singleton] at hb
  subst hb
  exact (List.mem_replicate.mp hx).2

theorem Tidy.lift {α : Type} (r : Res α) : Tidy (lift r) := fun _ _ => blank_nil

theorem Tidy.bind {α β : Type} {x : Mem α} {f : α → Mem β} (hx : Tidy x) (hf : ∀ a, Tidy (f a)) : Tidy (x >>= f) := by
  intro b h
  obtain ⟨a, ha, hb, he⟩ := bind_ok h
  rw [he]
  exact blank_append (hx a ha) (hf a b hb)

theorem Tidy.during {α : Type} {b : List UInt8} {x : Mem α} (hx : Tidy x) : Tidy (during b x) := by
  intro a h
  have h : x.res = .ok a := h
  show Blank (x.freed ++ (if x.res.isOk then [] else [b]))
  rw [h]
  exact blank_append (hx a h) blank_nil

theorem Tidy.wiped {α : Type} {b : List UInt8} {x : Mem α} (hx : Tidy x) : Tidy (wiped b x) := by
  intro a h
  have h : x.res = .ok a := h
  show Blank (x.freed ++ [if x.res.isOk then zeros b else b])
  rw [h]
  exact blank_append (hx a h) (blank_zeros _)

theorem Tidy.zeroizing {α : Type} {n : Nat} {x : Mem α} (hx : Tidy x) : Tidy (zeroizing n x) :=
  fun a h => blank_append (hx a h) (blank_zeros _)

theorem Tidy.guarding {α : Type} {n : Nat} {x : Mem α} (hx : Tidy x) : Tidy (guarding n x) := by
  intro a h
  have h : x.res = .ok a := h
  show Blank (x.freed ++ (if x.res.isOk then [] else [List.replicate n 0]))
  rw [h]
  exact blank_append (hx a h) blank_nil

theorem Tidy.ite {α : Type} {c : Prop} [Decidable c] {x y : Mem α} (hx : Tidy x) (hy : Tidy y) : Tidy (if c then x else y) := by
  split
  · exact hx
  · exact hy

end Mem

theorem Res.bind_assoc' {α β γ : Type} (x : Res α) (f : α → Res β) (g : β → Res γ) : ((x >>= f) >>= g) = (x >>= fun a => f a >>= g) := by
  cases x <;> rfl

theorem Res.bind_ite {α β : Type} {c : Prop} [Decidable c] (x y : Res α) (f : α → Res β) : ((if c then x else y) >>= f) = if c then x >>= f else y >>= f := by
  split <;> rfl

theorem Mem.ite_res {α : Type} {c : Prop} [Decidable c] (x y : Mem α) : (if c then x else y).res = if c then x.res else y.res := by
  split <;> rfl

theorem Res.bind_ok' {α : Type} (x : Res α) : (x >>= fun a => Res.ok a) = x := by cases x <;> rfl

namespace Matter

theorem infilMem_res (E : Env) (m : Matter) : (infilMem E m).res = infil E m := by
  unfold infilMem infil
  simp only [bind_res, during_res, lift_res, ite_res, wiped_res, zeroizing_res, Res.bind_assoc', Res.bind_ite, Res.err_bind, Res.ok_bind]

theorem binfilMem_res (E : Env) (m : Matter) : (binfilMem E m).res = binfil E m := by
  unfold binfilMem binfil
  simp only [bind_res, during_res, lift_res, ite_res, wiped_res, binfilFinishMem, binfil.finish]

theorem exfilMem_res (junk : Str → List UInt8) (s : Str) : (exfilMem junk s).res = exfil s := by
  unfold exfilMem exfil
  cases s with
  | nil => rfl
  | cons first t =>
    simp only [bind_res, during_res, lift_res, ite_res, wiped_res, Res.bind_assoc', Res.bind_ite, Res.err_bind, Res.ok_bind]

theorem bexfilMem_res (E : Env) (b : List UInt8) : (bexfilMem E b).res = bexfil E b := by
  unfold bexfilMem bexfil
  simp only [ite_res, lift_res, bind_res]
  split
  · rfl
  · congr 1
    funext firsts
    cases firsts with
    | nil => rfl
    | cons first t =>
      simp only [ite_res, lift_res, bind_res, wiped_res]
      congr 1
      funext hs
      split
      · rfl
      congr 1; funext hard
      congr 1; funext szg
      congr 1; funext p
      split
      · rfl
      split
      · split
        · rename_i hn; rw [hn]; rfl
        · rename_i hb; rw [hb]; simp only [ite_res, lift_res, Res.bind_ite, Res.err_bind]
      · simp only [Res.bind_ite, Res.err_bind]

theorem newMem_res (E : Env) (junk : Str → List UInt8) (code : Option Str) (raw : Option (List UInt8)) (qb64b : Option (List UInt8)) (qb64 : Option Str)
    (qb2 : Option (List UInt8)) : (newMem E junk code raw qb64b qb64 qb2).res = new E code raw qb64b qb64 qb2 := by
  unfold newMem new
  cases raw <;> cases code <;> cases qb64b <;> cases qb64 <;> cases qb2 <;>
    simp [newWithQb64bMem, newWithQb64b, newWithQb64, newWithQb2, exfilMem_res, bexfilMem_res]

theorem qb64bMem_res (E : Env) (m : Matter) : (qb64bMem E m).res = qb64b E m := by
  simp [qb64bMem, infilMem_res, qb64b, qb64, Res.bind_ok']

end Matter

namespace Signer

theorem newMem_res (E : Env) (C : Crypto) (junk : Str → List UInt8) (r : Nat) (t : Option Bool) (code : Option Str) (raw : Option (List UInt8))
    (qb64b : Option (List UInt8)) (qb64 : Option Str) (qb2 : Option (List UInt8)) :
    (newMem E C junk r t code raw qb64b qb64 qb2).res = new E C r t code raw qb64b qb64 qb2 := by
  unfold newMem new
  simp only [bind_res, ite_res, lift_res, wiped_res, guarding_res, dropped_res, Matter.newMem_res]
  cases raw <;> rfl

theorem signUnindexedMem_res (E : Env) (C : Crypto) (s : Signer) (ser : List UInt8) (r : Nat) :
    (signUnindexedMem E C s ser r).res = signUnindexed E C s ser r := by
  unfold signUnindexedMem signUnindexed
  simp only [bind_res, lift_res, dropped_res]

theorem signIndexedMem_res (E : Env) (C : Crypto) (s : Signer) (ser : List UInt8) (only : Bool) (index : Nat) (ondex : Option Nat) (r : Nat) :
    (signIndexedMem E C s ser only index ondex r).res = signIndexed E C s ser only index ondex r := by
  unfold signIndexedMem signIndexed
  simp only [bind_res, lift_res, dropped_res]

end Signer

namespace Salter

theorem newMem_res (E : Env) (junk : Str → List UInt8) (rnd : List UInt8) (tier code : Option Str) (raw : Option (List UInt8)) (qb64b : Option (List UInt8))
    (qb64 : Option Str) (qb2 : Option (List UInt8)) :
    (newMem E junk rnd tier code raw qb64b qb64 qb2).res = new E rnd tier code raw qb64b qb64 qb2 := by
  unfold newMem new
  simp only [bind_res, ite_res, lift_res, wiped_res, Matter.newMem_res]

theorem stretchMem_res (C : Crypto) (s : Salter) (size : Option Nat) (path tier : Option Str) (temp : Option Bool) :
    (stretchMem C s size path tier temp).res = stretch C s size path tier temp := rfl

theorem signerMem_res (E : Env) (C : Crypto) (junk : Str → List UInt8) (s : Salter) (code : Option Str) (t : Option Bool) (path tier : Option Str)
    (temp : Option Bool) : (signerMem E C junk s code t path tier temp).res = signer E C s code t path tier temp := by
  unfold signerMem signer
  simp only [bind_res, lift_res, wiped_res, stretchMem_res, Signer.newMem_res]

theorem signersLoopMem_res (E : Env) (C : Crypto) (junk : Str → List UInt8) (s : Salter) (start : Nat) (path : Str) (code : Option Str) (t : Option Bool)
    (tier : Option Str) (temp : Option Bool) (l : List Nat) :
    (signersLoopMem E C junk s start path code t tier temp l).res = signersLoop E C s start path code t tier temp l := by
  induction l with
  | nil => rfl
  | cons i is ih =>
    unfold signersLoopMem signersLoop
    simp only [bind_res, lift_res, guarding_res, signerMem_res, ih]

theorem signersMem_res (E : Env) (C : Crypto) (junk : Str → List UInt8) (s : Salter) (count start : Option Nat) (path code : Option Str)
    (t : Option Bool) (tier : Option Str) (temp : Option Bool) :
    (signersMem E C junk s count start path code t tier temp).res = signers E C s count start path code t tier temp :=
  signersLoopMem_res ..

end Salter

/-- C104: following the memory changes no outcome: each call below has the outcome of the call in the other models. -/
theorem C104_same (E : Env) (C : Crypto) (junk : Str → List UInt8) :
    (∀ m, (Matter.infilMem E m).res = m.qb64 E ∧ (Matter.binfilMem E m).res = m.qb2 E ∧ (Matter.qb64bMem E m).res = m.qb64b E) ∧
    (∀ code raw qb64b qb64 qb2, (Matter.newMem E junk code raw qb64b qb64 qb2).res = Matter.new E code raw qb64b qb64 qb2) ∧
    (∀ r t code raw qb64b qb64 qb2, (Signer.newMem E C junk r t code raw qb64b qb64 qb2).res = Signer.new E C r t code raw qb64b qb64 qb2) ∧
    (∀ s ser r, (Signer.signUnindexedMem E C s ser r).res = s.signUnindexed E C ser r) ∧
    (∀ s ser only index ondex r, (Signer.signIndexedMem E C s ser only index ondex r).res = s.signIndexed E C ser only index ondex r) ∧
    (∀ rnd tier code raw qb64b qb64 qb2, (Salter.newMem E junk rnd tier code raw qb64b qb64 qb2).res = Salter.new E rnd tier code raw qb64b qb64 qb2) ∧
    (∀ s size path tier temp, (Salter.stretchMem C s size path tier temp).res = s.stretch C size path tier temp) ∧
    (∀ s code t path tier temp, (Salter.signerMem E C junk s code t path tier temp).res = s.signer E C code t path tier temp) ∧
    (∀ s count start path code t tier temp,
      (Salter.signersMem E C junk s count start path code t tier temp).res = s.signers E C count start path code t tier temp) :=
  ⟨fun m => ⟨Matter.infilMem_res E m, Matter.binfilMem_res E m, Matter.qb64bMem_res E m⟩,
    fun _ _ _ _ _ => Matter.newMem_res .., fun _ _ _ _ _ _ _ => Signer.newMem_res .., fun _ _ _ => Signer.signUnindexedMem_res ..,
    fun _ _ _ _ _ _ => Signer.signIndexedMem_res .., fun _ _ _ _ _ _ _ => Salter.newMem_res .., fun _ _ _ _ _ => rfl,
    fun _ _ _ _ _ _ => Salter.signerMem_res .., fun _ _ _ _ _ _ _ _ => Salter.signersMem_res ..⟩

/-! ## What is clean -/

namespace Matter

theorem infilMem_tidy (E : Env) (m : Matter) : Tidy (infilMem E m) := by
  unfold infilMem
  refine Tidy.bind (Tidy.during (Tidy.lift _)) fun szg => ?_
  refine Tidy.ite ?_ ?_
  · exact Tidy.bind (Tidy.wiped (Tidy.lift _)) fun _ => Tidy.zeroizing (Tidy.zeroizing (Tidy.lift _))
  · exact Tidy.bind (Tidy.wiped (Tidy.lift _)) fun _ => Tidy.zeroizing (Tidy.zeroizing (Tidy.lift _))

theorem binfilMem_tidy (E : Env) (m : Matter) : Tidy (binfilMem E m) := by
  unfold binfilMem
  refine Tidy.wiped (Tidy.bind (Tidy.lift _) fun szg => Tidy.bind (Tidy.lift _) fun p => ?_)
  refine Tidy.ite (Tidy.lift _) (Tidy.ite ?_ (Tidy.ite ?_ (Tidy.lift _)))
  · exact Tidy.bind (Tidy.lift _) fun _ => Tidy.during (Tidy.lift _)
  · exact Tidy.bind (Tidy.lift _) fun _ => Tidy.during (Tidy.lift _)

theorem exfilMem_tidy (junk : Str → List UInt8) (s : Str) : Tidy (exfilMem junk s) := by
  unfold exfilMem
  cases s with
  | nil => exact Tidy.lift _
  | cons first t =>
    refine Tidy.bind (Tidy.lift _) fun hs => Tidy.ite (Tidy.lift _) ?_
    refine Tidy.bind (Tidy.lift _) fun hard => Tidy.bind (Tidy.lift _) fun szg => Tidy.bind (Tidy.lift _) fun p => Tidy.ite (Tidy.lift _) ?_
    refine Tidy.bind (Tidy.lift _) fun trim => Tidy.bind (Tidy.lift _) fun material => Tidy.ite ?_ ?_
    · refine Tidy.bind (Tidy.wiped (Tidy.during (Tidy.lift _))) fun paw => Tidy.bind (Tidy.wiped ?_) fun raw => Tidy.wiped (Tidy.lift _)
      exact Tidy.bind (Tidy.lift _) fun pad => Tidy.ite (Tidy.lift _) (Tidy.lift _)
    · refine Tidy.bind (Tidy.during (Tidy.lift _)) fun paw => Tidy.bind (Tidy.wiped ?_) fun raw => Tidy.wiped (Tidy.lift _)
      exact Tidy.bind (Tidy.lift _) fun pad => Tidy.ite (Tidy.ite (Tidy.lift _) (Tidy.lift _)) (Tidy.lift _)

theorem bexfilMem_tidy (E : Env) (b : List UInt8) : Tidy (bexfilMem E b) := by
  unfold bexfilMem
  refine Tidy.ite (Tidy.lift _) (Tidy.bind (Tidy.lift _) fun firsts => ?_)
  cases firsts with
  | nil => exact Tidy.lift _
  | cons first t =>
    refine Tidy.bind (Tidy.lift _) fun hs => Tidy.ite (Tidy.lift _) ?_
    refine Tidy.bind (Tidy.lift _) fun hard => Tidy.bind (Tidy.lift _) fun szg => Tidy.bind (Tidy.lift _) fun p => Tidy.ite (Tidy.lift _) ?_
    refine Tidy.bind (Tidy.wiped (Tidy.ite ?_ (Tidy.ite (Tidy.ite (Tidy.lift _) (Tidy.lift _)) (Tidy.lift _)))) fun raw => Tidy.wiped (Tidy.lift _)
    split
    · exact Tidy.lift _
    · exact Tidy.ite (Tidy.lift _) (Tidy.lift _)

/-- Unless a text in bytes is read, a constructor that succeeds gives back nothing but zeros. -/
theorem newMem_tidy (E : Env) (junk : Str → List UInt8) (code : Option Str) (raw : Option (List UInt8)) (qb64b : Option (List UInt8)) (qb64 : Option Str)
    (qb2 : Option (List UInt8)) (hb : raw ≠ none ∨ qb64b = none) : Tidy (newMem E junk code raw qb64b qb64 qb2) := by
  unfold newMem
  cases raw with
  | some raw => cases code <;> exact Tidy.lift _
  | none =>
    have hb : qb64b = none := hb.resolve_left (fun h => h rfl)
    subst hb
    cases qb64 with
    | some q => exact exfilMem_tidy _ _
    | none =>
      cases qb2 with
      | some q => exact bexfilMem_tidy _ _
      | none => exact Tidy.lift _

end Matter

/-- C104: writing a primitive, whatever it holds, as text or binary gives back nothing but zeros (when it succeeds). -/
theorem C104_written (E : Env) (m : Matter) :
    (∀ t, m.qb64 E = .ok t → Blank (Matter.infilMem E m).freed) ∧ (∀ b, m.qb2 E = .ok b → Blank (Matter.binfilMem E m).freed) :=
  ⟨fun t h => Matter.infilMem_tidy E m t ((Matter.infilMem_res E m).trans h), fun b h => Matter.binfilMem_tidy E m b ((Matter.binfilMem_res E m).trans h)⟩

/-- C104: making a primitive from raw material, from a text or from binary gives back nothing but zeros (when it succeeds). -/
theorem C104_read (E : Env) (junk : Str → List UInt8) (code : Option Str) (raw : Option (List UInt8)) (qb64b : Option (List UInt8)) (qb64 : Option Str)
    (qb2 : Option (List UInt8)) {m : Matter} (h : Matter.new E code raw qb64b qb64 qb2 = .ok m) (hb : raw ≠ none ∨ qb64b = none) :
    Blank (Matter.newMem E junk code raw qb64b qb64 qb2).freed :=
  Matter.newMem_tidy E junk code raw qb64b qb64 qb2 hb m ((Matter.newMem_res ..).trans h)

/-- C104: so does making a salter: drawn at random, from raw material, from a text or from binary. -/
theorem C104_salter (E : Env) (junk : Str → List UInt8) (rnd : List UInt8) (tier code : Option Str) (raw : Option (List UInt8))
    (qb64b : Option (List UInt8)) (qb64 : Option Str) (qb2 : Option (List UInt8)) {s : Salter}
    (h : Salter.new E rnd tier code raw qb64b qb64 qb2 = .ok s) (hb : raw ≠ none ∨ qb64b = none) :
    Blank (Salter.newMem E junk rnd tier code raw qb64b qb64 qb2).freed := by
  have ht : Tidy (Salter.newMem E junk rnd tier code raw qb64b qb64 qb2) := by
    unfold Salter.newMem
    refine Tidy.ite (Tidy.lift _) (Tidy.bind (Tidy.ite (Tidy.wiped ?_) ?_) fun m => Tidy.lift _)
    · exact Matter.newMem_tidy _ _ _ _ _ _ _ (Or.inr rfl)
    · exact Matter.newMem_tidy _ _ _ _ _ _ _ hb
  exact ht s ((Salter.newMem_res ..).trans h)

/-- C104: dropping a signer or a salter gives back nothing but zeros. -/
theorem C104_dropped (s : Signer) (t : Salter) : Blank s.dropMem.freed ∧ Blank t.dropMem.freed :=
  ⟨blank_append blank_nil (blank_zeros _), blank_append blank_nil (blank_zeros _)⟩

/-! ## What is left behind -/

theorem Spec.Leaves.of_blank {f : List (List UInt8)} (h : Blank f) : Leaves f [] := ⟨f, h, by simp⟩

theorem Spec.Leaves.refl (b : List (List UInt8)) : Leaves b b := ⟨[], blank_nil, by simp⟩

theorem Spec.Leaves.append {f g a b : List (List UInt8)} (hf : Leaves f a) (hg : Leaves g b) : Leaves (f ++ g) (a ++ b) := by
  obtain ⟨z, hz, hp⟩ := hf
  obtain ⟨w, hw, hq⟩ := hg
  refine ⟨z ++ w, blank_append hz hw, (hp.append hq).trans ?_⟩
  rw [List.append_assoc, List.append_assoc]
  refine List.Perm.append_left z ?_
  rw [← List.append_assoc, ← List.append_assoc]
  exact List.Perm.append_right b List.perm_append_comm

theorem Spec.Leaves.perm {f a b : List (List UInt8)} (h : Leaves f a) (p : a.Perm b) : Leaves f b := by
  obtain ⟨z, hz, hp⟩ := h
  exact ⟨z, hz, hp.trans (List.Perm.append_left z p)⟩

theorem leaves_wiped {α : Type} {b : List UInt8} {x : Mem α} {a : α} {l : List (List UInt8)} (h : x.res = .ok a) (hl : Leaves x.freed l) :
    Leaves (wiped b x).freed l := by
  show Leaves (x.freed ++ [if x.res.isOk then zeros b else b]) l
  rw [h]
  have := hl.append (Leaves.of_blank (blank_zeros b.length))
  rw [List.append_nil] at this
  exact this

theorem leaves_guarding {α : Type} {n : Nat} {x : Mem α} {l : List (List UInt8)} (hl : Leaves x.freed l) : Leaves (guarding n x).freed l := by
  show Leaves (x.freed ++ (if x.res.isOk then [] else [List.replicate n 0])) l
  split
  · simpa using hl
  · simpa using hl.append (Leaves.of_blank (blank_zeros n))

/-- C104 (defect): reading a text given as bytes leaves the whole text. -/
theorem C104_bytes_defect (E : Env) (junk : Str → List UInt8) (code : Option Str) (b : List UInt8) (qb64 : Option Str) (qb2 : Option (List UInt8)) {m : Matter}
    (h : Matter.new E code none (some b) qb64 qb2 = .ok m) : Leaves (Matter.newMem E junk code none (some b) qb64 qb2).freed [b] := by
  have h : Matter.newWithQb64b b = .ok m := h
  obtain ⟨q, hq, hm⟩ := Res.bind_eq_ok.mp h
  show Leaves ((lift (fromUtf8 b) >>= fun q => Matter.exfilMem junk q).freed ++ [b]) [b]
  rw [bind_freed (x := lift (fromUtf8 b)) hq]
  have := Leaves.of_blank (Matter.exfilMem_tidy junk q m ((Matter.exfilMem_res junk q).trans hm))
  simpa using this.append (Leaves.refl [b])

/-- C104 (defect): writing a text as bytes leaves the whole text. -/
theorem C104_text_defect (E : Env) {m : Matter} {t : Str} (h : m.qb64 E = .ok t) : Leaves (Matter.qb64bMem E m).freed [t] := by
  have h' : (Matter.infilMem E m).res = .ok t := (Matter.infilMem_res E m).trans h
  show Leaves (Matter.infilMem E m >>= fun s => dropped s (lift (.ok s))).freed [t]
  rw [bind_freed h']
  simpa [dropped] using (Leaves.of_blank ((C104_written E m).1 t h)).append (Leaves.refl [t])

/-- What a constructor leaves: the text when it was given as bytes (and used), else nothing. -/
def leftByRead (raw qb64b : Option (List UInt8)) : List (List UInt8) :=
  match raw, qb64b with
  | none, some b => [b]
  | _, _ => []

theorem newMem_leaves (E : Env) (junk : Str → List UInt8) (code : Option Str) (raw qb64b : Option (List UInt8)) (qb64 : Option Str) (qb2 : Option (List UInt8))
    {m : Matter} (h : Matter.new E code raw qb64b qb64 qb2 = .ok m) : Leaves (Matter.newMem E junk code raw qb64b qb64 qb2).freed (leftByRead raw qb64b) := by
  cases raw with
  | some raw =>
    exact Leaves.of_blank (C104_read E junk code _ qb64b qb64 qb2 h (Or.inl (by simp)))
  | none =>
    cases qb64b with
    | some b => exact C104_bytes_defect E junk code b qb64 qb2 h
    | none => exact Leaves.of_blank (C104_read E junk code _ _ qb64 qb2 h (Or.inr rfl))

/-- C104 (defect): making a signer leaves one copy of its seed, and the text when it was given as bytes. -/
theorem C104_signer_defect (E : Env) (C : Crypto) (junk : Str → List UInt8) (r : Nat) (t : Option Bool) (code : Option Str) (raw qb64b : Option (List UInt8))
    (qb64 : Option Str) (qb2 : Option (List UInt8)) {s : Signer} (h : Signer.new E C r t code raw qb64b qb64 qb2 = .ok s) :
    Leaves (Signer.newMem E C junk r t code raw qb64b qb64 qb2).freed (leftByRead raw qb64b ++ [s.matter.raw]) := by
  have h' := (Signer.newMem_res E C junk r t code raw qb64b qb64 qb2).trans h
  unfold Signer.newMem at h' ⊢
  obtain ⟨m, hm, hv, he⟩ := bind_ok h'
  rw [he]
  obtain ⟨v, hv1, hv2, he2⟩ := bind_ok hv
  rw [he2]
  have hs : { matter := m, verfer := v } = s := Res.ok.inj hv2
  subst hs
  refine Leaves.append ?_ ?_
  · split at hm
    · rename_i hc
      rw [if_pos hc]
      obtain ⟨hb, hq, hq2⟩ := hc
      obtain ⟨_, h1, h2, h3⟩ := bind_ok hm
      rw [h3]
      obtain ⟨k, h4, h5, h6⟩ := bind_ok h2
      rw [h6]
      have hr : leftByRead raw qb64b = [] := by
        cases qb64b with
        | none => cases raw <;> rfl
        | some b => simp at hb
      rw [hr]
      refine Leaves.of_blank (blank_append blank_nil (blank_append blank_nil ?_))
      exact Tidy.wiped (Matter.newMem_tidy E junk _ _ _ _ _ (Or.inr rfl)) m h5
    · rename_i hc
      rw [if_neg hc]
      obtain ⟨m', h1, h2, h3⟩ := bind_ok hm
      rw [h3]
      obtain ⟨_, h4, h5, h6⟩ := bind_ok h2
      rw [h6]
      have hl := newMem_leaves E junk code raw qb64b qb64 qb2 ((Matter.newMem_res ..).symm.trans h1)
      have hg : Leaves (guarding m'.raw.length (lift (Signer.validateCode m'.code))).freed [] := leaves_guarding (Leaves.refl [])
      simpa using hl.append (hg.append (Leaves.refl []))
  · have hg : Leaves (guarding m.raw.length (dropped m.raw (lift (Signer.deriveVerfer E C m.code m.raw (t.getD true))))).freed [m.raw] :=
      leaves_guarding (by simpa [dropped] using Leaves.refl [m.raw])
    simpa using hg.append (Leaves.refl [])

/-- C104 (defect): every signature leaves one copy of the seed, whether or not it succeeds. -/
theorem C104_sign_defect (E : Env) (C : Crypto) {s : Signer} (hc : s.matter.code ∈ [lit "A", lit "J", lit "Q"]) (ser : List UInt8) (r : Nat) :
    Leaves (Signer.signUnindexedMem E C s ser r).freed [s.matter.raw] ∧
    (∀ only index ondex, Leaves (Signer.signIndexedMem E C s ser only index ondex r).freed [s.matter.raw]) := by
  have key : ∀ {α : Type} (f : List UInt8 → Res α),
      Leaves (dropped s.matter.raw (lift (Sign.sign C s.matter.code s.matter.raw ser r)) >>= fun sig => lift (f sig)).freed [s.matter.raw] := by
    intro α f
    cases h : Sign.sign C s.matter.code s.matter.raw ser r with
    | ok sig => rw [bind_freed (a := sig) rfl]; exact Leaves.refl _
    | err e => rw [bind_freed_err (e := e) rfl]; exact Leaves.refl _
    | panic => exact Leaves.refl _
  have hp : ∀ a b c : Str, ∃ d, Signer.pick s.matter.code a b c = .ok d := by
    intro a b c
    simp only [List.mem_cons, List.not_mem_nil, or_false] at hc
    rcases hc with h | h | h <;> rw [h]
    · exact ⟨a, rfl⟩
    · exact ⟨b, rfl⟩
    · exact ⟨c, rfl⟩
  constructor
  · obtain ⟨d, hd⟩ := hp (lit "0B") (lit "0C") (lit "0I")
    unfold Signer.signUnindexedMem
    rw [bind_freed (a := d) (by exact hd)]
    exact key _
  · intro only index ondex
    unfold Signer.signIndexedMem
    cases only with
    | true =>
      by_cases hi : index < 64
      · obtain ⟨d, hd⟩ := hp (lit "B") (lit "D") (lit "F")
        rw [bind_freed (a := (d, none)) (by simp [hi, hd])]
        exact key _
      · obtain ⟨d, hd⟩ := hp (lit "2B") (lit "2D") (lit "2F")
        rw [bind_freed (a := (d, none)) (by simp [hi, hd])]
        exact key _
    | false =>
      by_cases hi : index = ondex.getD index ∧ index < 64
      · obtain ⟨d, hd⟩ := hp (lit "A") (lit "C") (lit "E")
        rw [bind_freed (a := (d, some (ondex.getD index))) (by rw [lift_res, if_neg (by simp)]; simp only [if_pos hi, hd, Res.ok_bind])]
        exact key _
      · obtain ⟨d, hd⟩ := hp (lit "2A") (lit "2C") (lit "2E")
        rw [bind_freed (a := (d, some (ondex.getD index))) (by rw [lift_res, if_neg (by simp)]; simp only [if_neg hi, hd, Res.ok_bind])]
        exact key _

/-- C104 (defect): stretching a salt leaves one copy of the salt; deriving a signer leaves the salt and the seed derived. -/
theorem C104_stretch_defect (E : Env) (C : Crypto) (junk : Str → List UInt8) (s : Salter) :
    (∀ size path tier temp, Leaves (s.stretchMem C size path tier temp).freed [s.matter.raw]) ∧
    (∀ code t path tier temp x, s.signer E C code t path tier temp = .ok x →
      Leaves (s.signerMem E C junk code t path tier temp).freed [s.matter.raw, x.matter.raw]) := by
  constructor
  · intro size path tier temp
    exact Leaves.refl _
  · intro code t path tier temp x h
    have h' := (Salter.signerMem_res E C junk s code t path tier temp).trans h
    unfold Salter.signerMem at h' ⊢
    obtain ⟨n, h1, h2, h3⟩ := bind_ok h'
    rw [h3]
    obtain ⟨seed, h4, h5, h6⟩ := bind_ok h2
    rw [h6]
    have hx := (Signer.newMem_res E C junk 0 (some (t.getD true)) (some (code.getD (lit "A"))) (some seed) none none none).symm.trans h5
    have hl := C104_signer_defect E C junk 0 _ _ _ _ _ _ hx
    exact (Leaves.refl []).append ((Leaves.refl [s.matter.raw]).append (leaves_wiped (l := [x.matter.raw]) h5 hl))

/-- C104 (defect): deriving many signers leaves the salt once for each, and each seed. -/
theorem C104_signers_defect (E : Env) (C : Crypto) (junk : Str → List UInt8) (s : Salter) (count start : Option Nat) (path code : Option Str)
    (t : Option Bool) (tier : Option Str) (temp : Option Bool) {xs : List Signer} (h : s.signers E C count start path code t tier temp = .ok xs) :
    Leaves (s.signersMem E C junk count start path code t tier temp).freed (xs.flatMap fun x => [s.matter.raw, x.matter.raw]) := by
  unfold Salter.signers at h
  unfold Salter.signersMem
  generalize List.range (count.getD 1) = l at h ⊢
  induction l generalizing xs with
  | nil =>
    have : [] = xs := Res.ok.inj h
    subst this
    exact Leaves.refl _
  | cons i is ih =>
    have h' := (Salter.signersLoopMem_res E C junk s (start.getD 0) (path.getD []) code t tier temp (i :: is)).trans h
    unfold Salter.signersLoopMem at h' ⊢
    obtain ⟨n, h1, h2, h3⟩ := bind_ok h'
    rw [h3]
    obtain ⟨x, h4, h5, h6⟩ := bind_ok h2
    rw [h6]
    obtain ⟨ys, h7, h8, h9⟩ := bind_ok h5
    rw [h9]
    have hxs : x :: ys = xs := Res.ok.inj h8
    subst hxs
    have hx := (C104_stretch_defect E C junk s).2 _ _ _ _ _ x ((Salter.signerMem_res ..).symm.trans h4)
    have hys := leaves_guarding (n := x.matter.raw.length) (ih ((Salter.signersLoopMem_res ..).symm.trans h7))
    have := (Leaves.refl []).append (hx.append (hys.append (Leaves.refl [])))
    rw [List.append_nil (as := List.flatMap _ _)] at this
    exact this

/-- C104 (defect): a seed stretched for a code no signer takes is left as it is. -/
theorem C104_refused_defect (E : Env) (C : Crypto) (junk : Str → List UInt8) (s : Salter) (code : Str) (n : Nat) (t : Option Bool) (path tier : Option Str)
    (temp : Option Bool) (seed : List UInt8) (hn : Matter.rawSize code = .ok n) (hc : code ∉ [lit "A", lit "J", lit "Q"])
    (hs : s.stretch C (some n) path tier temp = .ok seed) :
    s.signer E C (some code) t path tier temp = .err .unexpectedCode ∧
    (s.signerMem E C junk (some code) t path tier temp).freed = [s.matter.raw, seed] := by
  have hv : Signer.validateCode code = .err .unexpectedCode := by
    unfold Signer.validateCode
    rw [if_neg]
    simpa using hc
  have hs' : s.stretch C (some n) (some (path.getD [])) tier (some (temp.getD false)) = .ok seed := by
    rw [← hs]; rfl
  constructor
  · unfold Salter.signer Signer.new
    simp only [Option.getD_some, hn, Res.ok_bind, hs', Option.isNone_none, and_self, if_true, hv, Res.err_bind]
  · unfold Salter.signerMem
    rw [bind_freed (a := n) (by exact hn), bind_freed (a := seed) (by exact hs')]
    have hm : Signer.newMem E C junk 0 (some (t.getD true)) (some code) (some seed) none none none = ⟨.err .unexpectedCode, []⟩ := by
      unfold Signer.newMem
      simp only [Option.isNone_none, and_self, if_true, Option.getD_some, hv]
      rfl
    simp only [Option.getD_some, hm]
    rfl

/-- C104 (defect): replacing the material of a signer leaves the old seed. -/
theorem C104_replaced_defect (s : Signer) (raw : List UInt8) : (s.setRawMem raw).freed = [s.matter.raw] := rfl

/-! ## Whole lives -/

/-- What one can do with a signer. -/
inductive SignerUse where
  | text | textBytes | binary
  | sign (ser : List UInt8) (r : Nat)
  | signIndexed (ser : List UInt8) (only : Bool) (index : Nat) (ondex : Option Nat) (r : Nat)

/-- The buffers given back by one use; the value returned is the caller's. -/
def SignerUse.freed (E : Env) (C : Crypto) (s : Signer) : SignerUse → List (List UInt8)
  | .text => (Matter.infilMem E s.matter).freed
  | .textBytes => (Matter.qb64bMem E s.matter).freed
  | .binary => (Matter.binfilMem E s.matter).freed
  | .sign ser r => (s.signUnindexedMem E C ser r).freed
  | .signIndexed ser only index ondex r => (s.signIndexedMem E C ser only index ondex r).freed

/-- What one use of a signer with seed `seed` and text `t` leaves. -/
def SignerUse.left (seed : List UInt8) (t : Str) : SignerUse → List (List UInt8)
  | .text => []
  | .textBytes => [t]
  | .binary => []
  | .sign _ _ => [seed]
  | .signIndexed _ _ _ _ _ => [seed]

theorem uses_leave {U : Type} (freed left : U → List (List UInt8)) (h : ∀ u, Leaves (freed u) (left u)) (us : List U) :
    Leaves (us.flatMap freed) (us.flatMap left) := by
  induction us with
  | nil => exact Leaves.refl _
  | cons u us ih => exact (h u).append ih

/-- C104: over the whole life of a signer (made, used in any way any number of times, dropped) exactly these copies are left:
one of the seed at its making and one for each signature, and its text for each time it is written as bytes (and at its making when read from bytes). -/
theorem C104_signer_life (E : Env) (C : Crypto) (junk : Str → List UInt8) (r : Nat) (t : Option Bool) (code : Option Str) (raw qb64b : Option (List UInt8))
    (qb64 : Option Str) (qb2 : Option (List UInt8)) {s : Signer} (h : Signer.new E C r t code raw qb64b qb64 qb2 = .ok s)
    {text : Str} {bin : List UInt8} (ht : s.matter.qb64 E = .ok text) (hb : s.matter.qb2 E = .ok bin) (us : List SignerUse) :
    Leaves ((Signer.newMem E C junk r t code raw qb64b qb64 qb2).freed ++ us.flatMap (SignerUse.freed E C s) ++ s.dropMem.freed)
      (leftByRead raw qb64b ++ [s.matter.raw] ++ us.flatMap (SignerUse.left s.matter.raw text)) := by
  have hc : s.matter.code ∈ [lit "A", lit "J", lit "Q"] := by
    obtain ⟨c, hok, _⟩ := Signer.new_ok h
    rw [hok.code]
    cases c <;> decide +kernel
  have hu : ∀ u, Leaves (SignerUse.freed E C s u) (SignerUse.left s.matter.raw text u) := by
    intro u
    cases u with
    | text => exact Leaves.of_blank ((C104_written E s.matter).1 _ ht)
    | textBytes => exact C104_text_defect E ht
    | binary => exact Leaves.of_blank ((C104_written E s.matter).2 _ hb)
    | sign ser r => exact (C104_sign_defect E C hc ser r).1
    | signIndexed ser only index ondex r => exact (C104_sign_defect E C hc ser r).2 only index ondex
  have := ((C104_signer_defect E C junk r t code raw qb64b qb64 qb2 h).append (uses_leave _ _ hu us)).append (Leaves.of_blank (C104_dropped s { matter := s.matter, tier := [] }).1)
  simpa using this

/-- What one can do with a salter (deriving signers apart). -/
inductive SalterUse where
  | text | textBytes | binary
  | stretch (size : Option Nat) (path tier : Option Str) (temp : Option Bool)

/-- The buffers given back by one use. -/
def SalterUse.freed (E : Env) (C : Crypto) (s : Salter) : SalterUse → List (List UInt8)
  | .text => (Matter.infilMem E s.matter).freed
  | .textBytes => (Matter.qb64bMem E s.matter).freed
  | .binary => (Matter.binfilMem E s.matter).freed
  | .stretch size path tier temp => (s.stretchMem C size path tier temp).freed

/-- What one use of a salter with salt `salt` and text `t` leaves. -/
def SalterUse.left (salt : List UInt8) (t : Str) : SalterUse → List (List UInt8)
  | .text => []
  | .textBytes => [t]
  | .binary => []
  | .stretch _ _ _ _ => [salt]

/-- C104: the same for a salter; one that is not read from bytes, not written as bytes and not stretched leaves nothing. -/
theorem C104_salter_life (E : Env) (C : Crypto) (junk : Str → List UInt8) (rnd : List UInt8) (tier code : Option Str) (raw qb64b : Option (List UInt8))
    (qb64 : Option Str) (qb2 : Option (List UInt8)) {s : Salter} (h : Salter.new E rnd tier code raw qb64b qb64 qb2 = .ok s)
    {text : Str} {bin : List UInt8} (ht : s.matter.qb64 E = .ok text) (hb : s.matter.qb2 E = .ok bin) (us : List SalterUse) :
    Leaves ((Salter.newMem E junk rnd tier code raw qb64b qb64 qb2).freed ++ us.flatMap (SalterUse.freed E C s) ++ s.dropMem.freed)
      (leftByRead raw qb64b ++ us.flatMap (SalterUse.left s.matter.raw text)) ∧
    ((raw ≠ none ∨ qb64b = none) → (∀ u ∈ us, u = .text ∨ u = .binary) →
      Blank ((Salter.newMem E junk rnd tier code raw qb64b qb64 qb2).freed ++ us.flatMap (SalterUse.freed E C s) ++ s.dropMem.freed)) := by
  have hnew : Leaves (Salter.newMem E junk rnd tier code raw qb64b qb64 qb2).freed (leftByRead raw qb64b) := by
    by_cases hr : raw ≠ none ∨ qb64b = none
    · have hl : leftByRead raw qb64b = [] := by
        cases raw with
        | some _ => rfl
        | none =>
          cases qb64b with
          | none => rfl
          | some b => simp at hr
      rw [hl]
      exact Leaves.of_blank (C104_salter E junk rnd tier code raw qb64b qb64 qb2 h hr)
    · have h1 : raw = none := by
        cases raw with
        | none => rfl
        | some x => exact absurd (Or.inl (by simp)) hr
      subst h1
      obtain ⟨b, h2⟩ : ∃ b, qb64b = some b := by
        cases qb64b with
        | none => exact absurd (Or.inr rfl) hr
        | some b => exact ⟨b, rfl⟩
      subst h2
      have h' := (Salter.newMem_res E junk rnd tier code none (some b) qb64 qb2).trans h
      unfold Salter.newMem at h' ⊢
      by_cases hc : code.getD (lit "0A") ≠ lit "0A"
      · simp only [if_pos hc] at h'
        cases h'
      · simp only [if_neg hc] at h' ⊢
        rw [if_neg (by simp)] at h' ⊢
        obtain ⟨m, h3, h4, h5⟩ := bind_ok h'
        rw [h5]
        have := (C104_bytes_defect E junk (some (code.getD (lit "0A"))) b qb64 qb2 ((Matter.newMem_res ..).symm.trans h3)).append (Leaves.refl [])
        exact this
  have hu : ∀ u, Leaves (SalterUse.freed E C s u) (SalterUse.left s.matter.raw text u) := by
    intro u
    cases u with
    | text => exact Leaves.of_blank ((C104_written E s.matter).1 _ ht)
    | textBytes => exact C104_text_defect E ht
    | binary => exact Leaves.of_blank ((C104_written E s.matter).2 _ hb)
    | stretch size path tier temp => exact (C104_stretch_defect E C junk s).1 size path tier temp
  have hd : Blank s.dropMem.freed := blank_append blank_nil (blank_zeros _)
  constructor
  · simpa using (hnew.append (uses_leave _ _ hu us)).append (Leaves.of_blank hd)
  · intro hr hall
    refine blank_append (blank_append (C104_salter E junk rnd tier code raw qb64b qb64 qb2 h hr) ?_) hd
    intro b hbm
    obtain ⟨u, hum, hbu⟩ := List.mem_flatMap.mp hbm
    rcases hall u hum with rfl | rfl
    · exact (C104_written E s.matter).1 _ ht b hbu
    · exact (C104_written E s.matter).2 _ hb b hbu

/-- A seed for the samples. -/
def sampleSeed : List UInt8 := (List.range 32).map fun i => UInt8.ofNat (i + 1)

/-- C104 (defect): a text that is refused for its pad bits leaves the material it encodes. -/
theorem C104_refused_text_defect : ∃ t : Str, Matter.exfil t = .err .prepad ∧
    ∀ junk, ∃ b ∈ (Matter.exfilMem junk t).freed, b.drop 1 = sampleSeed := by
  refine ⟨lit "A" ++ (b64Encode (1 :: sampleSeed)).drop 1, by decide +kernel, fun junk => ⟨1 :: sampleSeed, ?_, rfl⟩⟩
  have h : (Matter.exfilMem junk (lit "A" ++ (b64Encode (1 :: sampleSeed)).drop 1)).freed = [zeros (b64Encode (1 :: sampleSeed)), 1 :: sampleSeed] := by
    kernel_rfl
  rw [h]
  simp

/-- The premises are met. A signer made from a seed, written and used to sign twice, leaves three copies of its seed; the copy made when its
material is replaced is a fourth. -/
example : ∃ s t b, Signer.new Env.debug toy 0 none none (some sampleSeed) none none none = .ok s ∧ s.matter.raw = sampleSeed ∧
    s.matter.qb64 Env.debug = .ok t ∧ s.matter.qb2 Env.debug = .ok b ∧
    [SignerUse.text, .sign (lit "a") 1, .binary, .signIndexed (lit "b") false 0 none 2].flatMap (SignerUse.left s.matter.raw t) = [sampleSeed, sampleSeed] :=
  ⟨{ matter := { code := lit "A", size := 0, raw := sampleSeed }, verfer := { code := lit "D", size := 0, raw := sampleSeed } },
    lit "A" ++ (b64Encode (0 :: sampleSeed)).drop 1, 0 :: sampleSeed, by decide +kernel, rfl, by decide +kernel, by decide +kernel, rfl⟩

example : ¬ Blank [sampleSeed] := by
  intro h
  exact absurd (h sampleSeed (by simp) 1 (by decide +kernel)) (by decide)

/-- A salter read from its text; a seed stretched for a verification key code. -/
example : ∃ s t b, Salter.new Env.debug [] none none none none (some (lit "0AAwMTIzNDU2Nzg5YWJjZGVm")) none = .ok s ∧ s.matter.qb64 Env.debug = .ok t ∧
    s.matter.qb2 Env.debug = .ok b ∧ Matter.rawSize (lit "D") = .ok 32 ∧ lit "D" ∉ [lit "A", lit "J", lit "Q"] ∧
    s.stretch toy (some 32) none none none = .ok (List.replicate 32 7) :=
  ⟨{ matter := { code := lit "0A", size := 0, raw := lit "0123456789abcdef" }, tier := lit "low" }, lit "0AAwMTIzNDU2Nzg5YWJjZGVm", _,
    by decide +kernel, by decide +kernel, by rfl, by decide +kernel, by decide +kernel, by decide +kernel⟩

end Cesride
