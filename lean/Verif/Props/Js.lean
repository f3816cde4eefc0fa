import Verif.Model.Js
import Verif.Props.Defaults
import Verif.Props.Content
import Verif.Lemmas.KernelRfl

/-! # C106: objects handed to the JavaScript bindings -/

namespace Cesride
open Cesride.Js

namespace Spec.Js
/-- Object `i` is among the objects a call is handed (not merely shown). -/
def Handed (c : Call) (i : Handle) : Prop := ∃ a ∈ c.args, a.handle = some i

/-- Every object of a call exists and has the class the method declares, and no required argument is left out (what TypeScript checks). -/
def Typed (h : Heap) (c : Call) : Prop :=
  (∀ a ∈ c.args, (a.handle = none → a.optional = true) ∧ ∀ i, a.handle = some i → ∃ s, h[i]? = some s ∧ s.obj.cls = a.cls) ∧
  ∀ r ∈ c.refs, ∃ s, h[r.1]? = some s ∧ s.obj.cls = r.2

/-- Every call of a history is typed when it is made. -/
def TypedAll : Heap → List Call → Prop
  | _, [] => True
  | h, c :: cs => Typed h c ∧ TypedAll (run h c).1 cs

/-- The object can still be used, and is `o`. -/
def Alive (h : Heap) (i : Handle) (o : Obj) : Prop := h[i]? = some ⟨o, true⟩
/-- The object was used up. -/
def Used (h : Heap) (i : Handle) (c : Class) : Prop := ∃ o, h[i]? = some ⟨o, false⟩ ∧ o.cls = c

/-- What an optional argument of class `cls` is worth: the content of a usable object; undefined and a used-up object are worth nothing. -/
inductive Worth {α : Type} (h : Heap) (cls : Class) (f : α → Obj) : Option Handle → Option α → Prop
  | undefined : Worth h cls f none none
  | usable (i : Handle) (a : α) : Alive h i (f a) → (f a).cls = cls → Worth h cls f (some i) (some a)
  | usedUp (i : Handle) : Used h i cls → Worth h cls f (some i) none

/-- A binding answers what the library gives: the same object, or the failure as an exception. -/
def answer {α : Type} (f : α → Reply) : Res α → Res Reply
  | .ok a => .ok (f a)
  | .err e => .err e
  | .panic => .panic
end Spec.Js

open Spec.Js

/-! ## Lemmas -/

theorem Js.takeArg_slot (h : Heap) (a : Arg) :
    (takeArg h a).1.length = h.length ∧
    ∀ i s, h[i]? = some s → (takeArg h a).1[i]? = some s ∨ (a.handle = some i ∧ (takeArg h a).1[i]? = some { s with live := false }) := by
  unfold takeArg
  split
  · split <;> exact ⟨rfl, fun i s hs => .inl hs⟩
  · rename_i j hj
    split
    · exact ⟨rfl, fun i s hs => .inl hs⟩
    · rename_i t ht
      split
      · refine ⟨List.length_set, fun i s hs => ?_⟩
        by_cases hij : j = i
        · subst hij
          rw [ht] at hs
          cases hs
          refine .inr ⟨hj, ?_⟩
          have hlt : j < h.length := (List.getElem?_eq_some_iff.mp ht).1
          simp [hlt]
        · refine .inl ?_
          simp only [List.getElem?_set_ne hij]
          exact hs
      · exact ⟨rfl, fun i s hs => .inl hs⟩

theorem Js.takeArgs_cons (h : Heap) (a : Arg) (as : List Arg) :
    (takeArgs h (a :: as)).1 = (takeArg h a).1 ∨ (takeArgs h (a :: as)).1 = (takeArgs (takeArg h a).1 as).1 := by
  rw [takeArgs]
  cases h1 : takeArg h a with
  | mk h' r =>
    cases r with
    | ok o =>
      right
      simp only
      cases h2 : takeArgs h' as with
      | mk h'' r2 => cases r2 <;> rfl
    | err e => left; rfl
    | panic => left; rfl

theorem Js.takeArgs_slot (as : List Arg) : ∀ (h : Heap),
    (takeArgs h as).1.length = h.length ∧
    ∀ i s, h[i]? = some s → (takeArgs h as).1[i]? = some s ∨ ((∃ a ∈ as, a.handle = some i) ∧ (takeArgs h as).1[i]? = some { s with live := false }) := by
  induction as with
  | nil => intro h; exact ⟨rfl, fun i s hs => .inl hs⟩
  | cons a as ih =>
    intro h
    obtain ⟨hl, hs1⟩ := Js.takeArg_slot h a
    obtain ⟨hl2, hs2⟩ := ih (takeArg h a).1
    rcases Js.takeArgs_cons h a as with he | he <;> rw [he]
    · refine ⟨hl, fun i s hs => ?_⟩
      rcases hs1 i s hs with hx | ⟨ha, hx⟩
      · exact .inl hx
      · exact .inr ⟨⟨a, List.mem_cons_self .., ha⟩, hx⟩
    · refine ⟨hl2.trans hl, fun i s hs => ?_⟩
      rcases hs1 i s hs with hx | ⟨ha, hx⟩
      · rcases hs2 i s hx with hy | ⟨⟨b, hb, hbi⟩, hy⟩
        · exact .inl hy
        · exact .inr ⟨⟨b, List.mem_cons_of_mem _ hb, hbi⟩, hy⟩
      · refine .inr ⟨⟨a, List.mem_cons_self .., ha⟩, ?_⟩
        rcases hs2 i _ hx with hy | ⟨_, hy⟩ <;> exact hy

/-- A call leaves the heap of its arguments, with the new object at the end. -/
theorem Js.run_heap (h : Heap) (c : Call) :
    ((∃ o, (run h c).2 = .ok (.obj o) ∧ (run h c).1 = (takeArgs h c.args).1 ++ [⟨o, true⟩]) ∨
     ((∀ o, (run h c).2 ≠ .ok (.obj o)) ∧ (run h c).1 = (takeArgs h c.args).1)) := by
  unfold run
  cases h1 : takeArgs h c.args with
  | mk h' r =>
    cases r with
    | ok os =>
      simp only
      generalize (do let refs ← readRefs h' c.refs; if needed c.args os then c.body refs os else (.err .value : Res Reply)) = x
      cases x with
      | ok y =>
        cases y with
        | obj o => exact .inl ⟨o, rfl, rfl⟩
        | bool b => exact .inr ⟨by simp, rfl⟩
        | nothing => exact .inr ⟨by simp, rfl⟩
      | err e => exact .inr ⟨by simp, rfl⟩
      | panic => exact .inr ⟨by simp, rfl⟩
    | err e => exact .inr ⟨by simp, rfl⟩
    | panic => exact .inr ⟨by simp, rfl⟩

/-- A typed list of arguments is taken over completely. -/
theorem Js.takeArgs_typed (as : List Arg) : ∀ (h : Heap),
    (∀ a ∈ as, (a.handle = none → a.optional = true) ∧ ∀ i, a.handle = some i → ∃ s, h[i]? = some s ∧ s.obj.cls = a.cls) →
    (∃ os, (takeArgs h as).2 = .ok os) ∧
    (∀ i, (∃ a ∈ as, a.handle = some i) → ∀ s, h[i]? = some s → (takeArgs h as).1[i]? = some { s with live := false }) := by
  induction as with
  | nil =>
    intro h _
    exact ⟨⟨[], rfl⟩, fun i ⟨a, ha, _⟩ => by cases ha⟩
  | cons a as ih =>
    intro h ht
    obtain ⟨ha1, ha2⟩ := ht a (List.mem_cons_self ..)
    have hslot := Js.takeArg_slot h a
    have hrest : ∀ b ∈ as, (b.handle = none → b.optional = true) ∧ ∀ i, b.handle = some i → ∃ s, (takeArg h a).1[i]? = some s ∧ s.obj.cls = b.cls := by
      intro b hb
      obtain ⟨hb1, hb2⟩ := ht b (List.mem_cons_of_mem _ hb)
      refine ⟨hb1, fun i hi => ?_⟩
      obtain ⟨s, hs, hc⟩ := hb2 i hi
      rcases hslot.2 i s hs with hx | ⟨_, hx⟩
      · exact ⟨s, hx, hc⟩
      · exact ⟨_, hx, hc⟩
    obtain ⟨⟨os, hos⟩, hdead⟩ := ih (takeArg h a).1 hrest
    have hone : (∃ o, (takeArg h a).2 = .ok o) ∧ ∀ i, a.handle = some i → ∀ s, h[i]? = some s → (takeArg h a).1[i]? = some { s with live := false } := by
      unfold takeArg
      cases hh : a.handle with
      | none => simp [ha1 hh]
      | some j =>
        obtain ⟨s, hs, hc⟩ := ha2 j hh
        simp only [hs, hc, if_true]
        refine ⟨⟨_, rfl⟩, fun i hi s' hs' => ?_⟩
        cases hi
        rw [hs] at hs'
        cases hs'
        have hlt : j < h.length := (List.getElem?_eq_some_iff.mp hs).1
        simp [hlt]
    obtain ⟨⟨o, ho⟩, hd1⟩ := hone
    have heq : takeArgs h (a :: as) = ((takeArgs (takeArg h a).1 as).1, .ok (o :: os)) := by
      rw [takeArgs]
      cases h1 : takeArg h a with
      | mk h' r =>
        rw [h1] at ho hos
        simp only at ho hos
        subst ho
        simp only
        cases h2 : takeArgs h' as with
        | mk h'' r2 =>
          rw [h2] at hos
          simp only at hos
          subst hos
          rfl
    rw [heq]
    refine ⟨⟨_, rfl⟩, ?_⟩
    rintro i ⟨b, hb, hbi⟩ s hs
    simp only
    rcases hslot.2 i s hs with hx | ⟨hai, hx⟩
    · rcases List.mem_cons.mp hb with rfl | hb
      · rw [hd1 i hbi s hs] at hx
        have h3 := (Js.takeArgs_slot as (takeArg h b).1).2 i _ (hd1 i hbi s hs)
        rcases h3 with hy | ⟨_, hy⟩ <;> exact hy
      · exact hdead i ⟨b, hb, hbi⟩ s hx
    · rcases (Js.takeArgs_slot as (takeArg h a).1).2 i _ hx with hy | ⟨_, hy⟩ <;> exact hy

/-- An argument that breaks the types is an error. -/
theorem Js.takeArg_untyped (h : Heap) (a : Arg)
    (hn : ¬ ((a.handle = none → a.optional = true) ∧ ∀ i, a.handle = some i → ∃ s, h[i]? = some s ∧ s.obj.cls = a.cls)) : (takeArg h a).2 = .err .value := by
  unfold takeArg
  cases hh : a.handle with
  | none =>
    cases ho : a.optional with
    | false => rfl
    | true => exact absurd ⟨fun _ => ho, fun i hi => by rw [hh] at hi; cases hi⟩ hn
  | some i =>
    simp only
    cases hi : h[i]? with
    | none => rfl
    | some s =>
      simp only
      by_cases hc : s.obj.cls = a.cls
      · exact absurd ⟨(fun hx => by rw [hh] at hx; cases hx), (fun j hj => by rw [hh] at hj; cases hj; exact ⟨s, hi, hc⟩)⟩ hn
      · rw [if_neg hc]

theorem Js.takeArgs_untyped (as : List Arg) : ∀ (h : Heap),
    (¬ ∀ a ∈ as, (a.handle = none → a.optional = true) ∧ ∀ i, a.handle = some i → ∃ s, h[i]? = some s ∧ s.obj.cls = a.cls) →
    (takeArgs h as).2 = .err .value := by
  induction as with
  | nil => intro h hn; exact absurd (fun a ha => by cases ha) hn
  | cons a as ih =>
    intro h hn
    rw [takeArgs]
    by_cases ha : (a.handle = none → a.optional = true) ∧ ∀ i, a.handle = some i → ∃ s, h[i]? = some s ∧ s.obj.cls = a.cls
    · have hrest : ¬ ∀ b ∈ as, (b.handle = none → b.optional = true) ∧ ∀ i, b.handle = some i → ∃ s, (takeArg h a).1[i]? = some s ∧ s.obj.cls = b.cls := by
        intro hall
        refine hn (fun b hb => ?_)
        rcases List.mem_cons.mp hb with rfl | hb
        · exact ha
        · obtain ⟨h1, h2⟩ := hall b hb
          refine ⟨h1, fun i hi => ?_⟩
          obtain ⟨s, hs, hc⟩ := h2 i hi
          obtain ⟨hl, hsl⟩ := Js.takeArg_slot h a
          have hlt : i < h.length := hl ▸ (List.getElem?_eq_some_iff.mp hs).1
          have hg : h[i]? = some h[i] := List.getElem?_eq_getElem hlt
          refine ⟨_, hg, ?_⟩
          rcases hsl i _ hg with hx | ⟨_, hx⟩ <;> rw [hs] at hx <;> cases hx
          · exact hc
          · exact hc
      have := ih _ hrest
      have hr : (takeArg h a).2 = .err .value ∨ ∃ o, (takeArg h a).2 = .ok o := by
        unfold takeArg
        split
        · split
          · exact .inr ⟨_, rfl⟩
          · exact .inl rfl
        · split
          · exact .inl rfl
          · split
            · exact .inr ⟨_, rfl⟩
            · exact .inl rfl
      cases ht : takeArg h a with
      | mk h' r =>
        rw [ht] at this hr
        rcases hr with hr | ⟨o, hr⟩ <;> simp only at hr <;> subst hr
        · rfl
        · simp only at this ⊢
          cases h2 : takeArgs h' as with
          | mk h'' r2 =>
            rw [h2] at this
            simp only at this
            subst this
            rfl
    · have := Js.takeArg_untyped h a ha
      cases ht : takeArg h a with
      | mk h' r =>
        rw [ht] at this
        simp only at this
        subst this
        rfl

/-! ## C106 -/

/-- C106: a call that breaks the declared types is an error. -/
theorem C106_untyped (h : Heap) (c : Call) (hn : ¬ Typed h c) : (run h c).2 = .err .value := by
  by_cases ha : ∀ a ∈ c.args, (a.handle = none → a.optional = true) ∧ ∀ i, a.handle = some i → ∃ s, h[i]? = some s ∧ s.obj.cls = a.cls
  · obtain ⟨⟨os, hos⟩, _⟩ := Js.takeArgs_typed c.args h ha
    have hslot := Js.takeArgs_slot c.args h
    have hrefs : ¬ ∀ r ∈ c.refs, ∃ s, h[r.1]? = some s ∧ s.obj.cls = r.2 := fun hr => hn ⟨ha, hr⟩
    have hread : ∀ rs : List (Handle × Class), (¬ ∀ r ∈ rs, ∃ s, h[r.1]? = some s ∧ s.obj.cls = r.2) → readRefs (takeArgs h c.args).1 rs = .err .value := by
      intro rs
      induction rs with
      | nil => intro hn; exact absurd (fun r hr => by cases hr) hn
      | cons r rs ih =>
        intro hn
        have hone : readRef (takeArgs h c.args).1 r = .err .value ∨ ∃ o, readRef (takeArgs h c.args).1 r = .ok o ∧ ∃ s, h[r.1]? = some s ∧ s.obj.cls = r.2 := by
          unfold readRef
          cases hg : (takeArgs h c.args).1[r.1]? with
          | none => exact .inl rfl
          | some s =>
            simp only
            by_cases hc : s.obj.cls = r.2
            · rw [if_pos hc]
              cases hl : s.live with
              | false => exact .inl rfl
              | true =>
                refine .inr ⟨s.obj, rfl, ?_⟩
                have hlt : r.1 < h.length := hslot.1 ▸ (List.getElem?_eq_some_iff.mp hg).1
                have hg' : h[r.1]? = some h[r.1] := List.getElem?_eq_getElem hlt
                refine ⟨_, hg', ?_⟩
                rcases hslot.2 r.1 _ hg' with hx | ⟨_, hx⟩ <;> rw [hg] at hx <;> cases hx
                · exact hc
                · exact hc
            · rw [if_neg hc]; exact .inl rfl
        rcases hone with h1 | ⟨o, h1, hr⟩
        · simp [readRefs, h1, bind, Res.bind]
        · have := ih (fun hall => hn (fun r' hr' => by
            rcases List.mem_cons.mp hr' with rfl | hr'
            · exact hr
            · exact hall r' hr'))
          simp [readRefs, h1, this, bind, Res.bind]
    have := hread c.refs hrefs
    unfold run
    cases ht : takeArgs h c.args with
    | mk h' r =>
      rw [ht] at hos this
      simp only at hos this
      subst hos
      simp [this, bind, Res.bind]
  · have := Js.takeArgs_untyped c.args h ha
    unfold run
    cases ht : takeArgs h c.args with
    | mk h' r =>
      rw [ht] at this
      simp only at this
      subst this
      rfl

/-- C106, one call: whatever it answers, a typed call uses up exactly the objects it is handed, changes no object, and adds exactly the object it answers. -/
theorem C106_call (h : Heap) (c : Call) (ht : Typed h c) :
    (∀ (i : Handle) s, h[i]? = some s → (Handed c i → (run h c).1[i]? = some ⟨s.obj, false⟩) ∧ (¬ Handed c i → (run h c).1[i]? = some s)) ∧
    ((∃ o, (run h c).2 = .ok (.obj o) ∧ (run h c).1.length = h.length + 1 ∧ Alive (run h c).1 h.length o) ∨
     ((∀ o, (run h c).2 ≠ .ok (.obj o)) ∧ (run h c).1.length = h.length)) := by
  obtain ⟨hl, hs⟩ := Js.takeArgs_slot c.args h
  obtain ⟨_, hd⟩ := Js.takeArgs_typed c.args h ht.1
  have hold : ∀ (i : Handle) s, h[i]? = some s → (run h c).1[i]? = (takeArgs h c.args).1[i]? := by
    intro i s hi
    have hlt : i < (takeArgs h c.args).1.length := hl ▸ (List.getElem?_eq_some_iff.mp hi).1
    rcases Js.run_heap h c with ⟨o, _, he⟩ | ⟨_, he⟩ <;> rw [he]
    rw [List.getElem?_append_left hlt]
  refine ⟨fun i s hi => ⟨fun hh => ?_, fun hn => ?_⟩, ?_⟩
  · rw [hold i s hi]
    exact hd i hh s hi
  · rw [hold i s hi]
    rcases hs i s hi with hx | ⟨hh, _⟩
    · exact hx
    · exact absurd hh hn
  · rcases Js.run_heap h c with ⟨o, ho, he⟩ | ⟨ho, he⟩
    · refine .inl ⟨o, ho, ?_, ?_⟩
      · rw [he, List.length_append, hl]; rfl
      · unfold Alive
        rw [he, ← hl]
        simp
    · exact .inr ⟨ho, by rw [he, hl]⟩

/-- C106, any history at all, typed or not: an object that is never handed to a call keeps its content and stays usable; a used-up object stays used up. -/
theorem C106_kept (cs : List Call) : ∀ (h : Heap) (i : Handle) (s : Slot), h[i]? = some s →
    ((∀ c ∈ cs, ¬ Handed c i) → (after h cs)[i]? = some s) ∧
    (s.live = false → (after h cs)[i]? = some s) ∧
    (∃ l, (after h cs)[i]? = some ⟨s.obj, l⟩) := by
  induction cs with
  | nil => intro h i s hs; exact ⟨fun _ => hs, fun _ => hs, s.live, hs⟩
  | cons c cs ih =>
    intro h i s hs
    obtain ⟨hl, hslot⟩ := Js.takeArgs_slot c.args h
    have hlt : i < (takeArgs h c.args).1.length := hl ▸ (List.getElem?_eq_some_iff.mp hs).1
    have hold : (run h c).1[i]? = (takeArgs h c.args).1[i]? := by
      rcases Js.run_heap h c with ⟨o, _, he⟩ | ⟨_, he⟩ <;> rw [he]
      rw [List.getElem?_append_left hlt]
    have hcase : (run h c).1[i]? = some s ∨ (Handed c i ∧ (run h c).1[i]? = some { s with live := false }) := by
      rw [hold]; exact hslot i s hs
    show ((∀ c' ∈ c :: cs, ¬ Handed c' i) → (after (run h c).1 cs)[i]? = some s) ∧ (s.live = false → (after (run h c).1 cs)[i]? = some s) ∧
      ∃ l, (after (run h c).1 cs)[i]? = some ⟨s.obj, l⟩
    rcases hcase with hx | ⟨hh, hx⟩
    · obtain ⟨a, b, d⟩ := ih _ i s hx
      exact ⟨fun hn => a (fun c' hc' => hn c' (List.mem_cons_of_mem _ hc')), b, d⟩
    · obtain ⟨a, b, d⟩ := ih _ i _ hx
      refine ⟨fun hn => absurd hh (hn c (List.mem_cons_self ..)), fun hf => ?_, d⟩
      have he : ({ s with live := false } : Slot) = s := by cases s; cases hf; rfl
      rw [he] at b
      exact b hf

/-- C106, typed histories: an object is usable afterwards exactly if it was usable before and no call of the history was handed it. -/
theorem C106_history (cs : List Call) : ∀ (h : Heap) (i : Handle) (s : Slot), TypedAll h cs → h[i]? = some s →
    ((after h cs)[i]? = some ⟨s.obj, true⟩ ↔ s.live = true ∧ ∀ c ∈ cs, ¬ Handed c i) := by
  induction cs with
  | nil =>
    intro h i s _ hs
    show h[i]? = some ⟨s.obj, true⟩ ↔ _
    rw [hs]
    cases s with
    | mk o l => simp
  | cons c cs ih =>
    intro h i s ht hs
    obtain ⟨h1, h2⟩ := (C106_call h c ht.1).1 i s hs
    show (after (run h c).1 cs)[i]? = some ⟨s.obj, true⟩ ↔ _
    by_cases hh : Handed c i
    · have hx := h1 hh
      have hy := ih _ i _ ht.2 hx
      simp only at hy
      rw [hy]
      constructor
      · rintro ⟨hf, _⟩; cases hf
      · rintro ⟨_, hn⟩; exact absurd hh (hn c (List.mem_cons_self ..))
    · have hx := h2 hh
      rw [ih _ i s ht.2 hx]
      constructor
      · rintro ⟨hf, hn⟩
        refine ⟨hf, fun c' hc' => ?_⟩
        rcases List.mem_cons.mp hc' with rfl | hc'
        · exact hh
        · exact hn c' hc'
      · rintro ⟨hf, hn⟩
        exact ⟨hf, fun c' hc' => hn c' (List.mem_cons_of_mem _ hc')⟩

/-! ## What the calls answer -/

theorem Js.run_opt (h : Heap) (cls : Class) (i : Handle) (body : List Obj → List (Option Obj) → Res Reply) :
    (∀ o, Alive h i o → o.cls = cls → (run h ⟨[], [opt cls (some i)], body⟩).2 = body [] [some o]) ∧
    (Used h i cls → (run h ⟨[], [opt cls (some i)], body⟩).2 = body [] [none]) ∧
    (run h ⟨[], [opt cls none], body⟩).2 = body [] [none] := by
  refine ⟨fun o ho hc => ?_, fun ⟨o, ho, hc⟩ => ?_, ?_⟩
  · have : takeArgs h [opt cls (some i)] = (h.set i ⟨o, false⟩, .ok [some o]) := by
      simp [takeArgs, takeArg, opt, show h[i]? = some ⟨o, true⟩ from ho, hc]
    simp only [run, this]
    cases hb : body [] [some o] with
    | ok y => cases y <;> simp [readRefs, needed, opt, hb, bind, Res.bind]
    | err e => simp [readRefs, needed, opt, hb, bind, Res.bind]
    | panic => simp [readRefs, needed, opt, hb, bind, Res.bind]
  · have : takeArgs h [opt cls (some i)] = (h.set i ⟨o, false⟩, .ok [none]) := by
      simp [takeArgs, takeArg, opt, ho, hc]
    simp only [run, this]
    cases hb : body [] [none] with
    | ok y => cases y <;> simp [readRefs, needed, opt, hb, bind, Res.bind]
    | err e => simp [readRefs, needed, opt, hb, bind, Res.bind]
    | panic => simp [readRefs, needed, opt, hb, bind, Res.bind]
  · have : takeArgs h [opt cls none] = (h, .ok [none]) := by
      simp [takeArgs, takeArg, opt]
    simp only [run, this]
    cases hb : body [] [none] with
    | ok y => cases y <;> simp [readRefs, needed, opt, hb, bind, Res.bind]
    | err e => simp [readRefs, needed, opt, hb, bind, Res.bind]
    | panic => simp [readRefs, needed, opt, hb, bind, Res.bind]

theorem Js.run_req (h : Heap) (cls : Class) (i : Handle) (body : List Obj → List (Option Obj) → Res Reply) :
    (∀ o, Alive h i o → o.cls = cls → (run h ⟨[], [req cls i], body⟩).2 = body [] [some o]) ∧
    (Used h i cls → (run h ⟨[], [req cls i], body⟩).2 = .err .value) := by
  refine ⟨fun o ho hc => ?_, fun ⟨o, ho, hc⟩ => ?_⟩
  · have : takeArgs h [req cls i] = (h.set i ⟨o, false⟩, .ok [some o]) := by
      simp [takeArgs, takeArg, req, show h[i]? = some ⟨o, true⟩ from ho, hc]
    simp only [run, this]
    cases hb : body [] [some o] with
    | ok y => cases y <;> simp [readRefs, needed, req, hb, bind, Res.bind]
    | err e => simp [readRefs, needed, req, hb, bind, Res.bind]
    | panic => simp [readRefs, needed, req, hb, bind, Res.bind]
  · have : takeArgs h [req cls i] = (h.set i ⟨o, false⟩, .ok [none]) := by
      simp [takeArgs, takeArg, req, ho, hc]
    simp only [run, this]
    simp [readRefs, needed, req, bind, Res.bind]

theorem Js.run_opt2 (h : Heap) (c1 c2 : Class) (i j : Option Handle) (a b : Option Obj) (body : List Obj → List (Option Obj) → Res Reply)
    (hi : ∀ k, i = some k → (∃ o, Alive h k o ∧ o.cls = c1 ∧ a = some o) ∨ (Used h k c1 ∧ a = none)) (hi0 : i = none → a = none)
    (hj : ∀ k, j = some k → (∃ o, Alive h k o ∧ o.cls = c2 ∧ ((i ≠ some k ∧ b = some o) ∨ (i = some k ∧ b = none))) ∨ (Used h k c2 ∧ b = none))
    (hj0 : j = none → b = none) :
    (run h ⟨[], [opt c1 i, opt c2 j], body⟩).2 = body [] [a, b] := by
  have h1 : ∃ h', takeArg h (opt c1 i) = (h', .ok a) ∧ (∀ (k : Handle) s, i ≠ some k → h[k]? = some s → h'[k]? = some s) ∧
      (∀ (k : Handle) s, i = some k → h[k]? = some s → h'[k]? = some ⟨s.obj, false⟩) := by
    cases i with
    | none => exact ⟨h, by simp [takeArg, opt, hi0 rfl], fun k s _ hk => hk, fun k s hk => by cases hk⟩
    | some k =>
      have hset : ∀ o l, h[k]? = some ⟨o, l⟩ → (∀ (m : Handle) s, some k ≠ some m → h[m]? = some s → (h.set k ⟨o, false⟩)[m]? = some s) ∧
          (∀ (m : Handle) s, some k = some m → h[m]? = some s → (h.set k ⟨o, false⟩)[m]? = some ⟨s.obj, false⟩) := by
        intro o l ho
        refine ⟨fun m s hne hm => ?_, fun m s he hm => ?_⟩
        · rw [List.getElem?_set_ne (fun hc => hne (congrArg some hc))]; exact hm
        · cases he
          rw [ho] at hm
          cases hm
          have hlt : k < h.length := (List.getElem?_eq_some_iff.mp ho).1
          simp [hlt]
      rcases hi k rfl with ⟨o, ho, hc, ha⟩ | ⟨⟨o, ho, hc⟩, ha⟩
      · exact ⟨h.set k ⟨o, false⟩, by simp [takeArg, opt, show h[k]? = some ⟨o, true⟩ from ho, hc, ha], hset o true ho⟩
      · exact ⟨h.set k ⟨o, false⟩, by simp [takeArg, opt, ho, hc, ha], hset o false ho⟩
  obtain ⟨h', ht1, hne, heq⟩ := h1
  have h2 : ∃ h'', takeArg h' (opt c2 j) = (h'', .ok b) := by
    cases j with
    | none => exact ⟨h', by simp [takeArg, opt, hj0 rfl]⟩
    | some k =>
      rcases hj k rfl with ⟨o, ho, hc, ⟨hik, hb⟩ | ⟨hik, hb⟩⟩ | ⟨⟨o, ho, hc⟩, hb⟩
      · have := hne k _ hik ho
        exact ⟨h'.set k ⟨o, false⟩, by simp [takeArg, opt, this, hc, hb]⟩
      · have := heq k _ hik ho
        exact ⟨h'.set k ⟨o, false⟩, by simp [takeArg, opt, this, hc, hb]⟩
      · have : h'[k]? = some ⟨o, false⟩ := by
          by_cases hik : i = some k
          · exact heq k _ hik ho
          · exact hne k _ hik ho
        exact ⟨h'.set k ⟨o, false⟩, by simp [takeArg, opt, this, hc, hb]⟩
  obtain ⟨h'', ht2⟩ := h2
  have : takeArgs h [opt c1 i, opt c2 j] = (h'', .ok [a, b]) := by
    simp [takeArgs, ht1, ht2]
  simp only [run, this]
  cases hb : body [] [a, b] with
  | ok y => cases y <;> simp [readRefs, needed, opt, hb, bind, Res.bind]
  | err e => simp [readRefs, needed, opt, hb, bind, Res.bind]
  | panic => simp [readRefs, needed, opt, hb, bind, Res.bind]

theorem Js.run_method (h : Heap) (cs cls : Class) (self i : Handle) (m o : Obj) (body : List Obj → List (Option Obj) → Res Reply)
    (hs : Alive h self m) (hsc : m.cls = cs) (ho : Alive h i o) (hoc : o.cls = cls) (hne : self ≠ i) :
    (run h ⟨[(self, cs)], [req cls i], body⟩).2 = body [m] [some o] := by
  have h1 : takeArgs h [req cls i] = (h.set i ⟨o, false⟩, .ok [some o]) := by
    simp [takeArgs, takeArg, req, show h[i]? = some ⟨o, true⟩ from ho, hoc]
  have h2 : readRefs (h.set i ⟨o, false⟩) [(self, cs)] = .ok [m] := by
    have : (h.set i ⟨o, false⟩)[self]? = some ⟨m, true⟩ := by
      rw [List.getElem?_set_ne (Ne.symm hne)]; exact hs
    simp [readRefs, readRef, this, hsc, bind, Res.bind]
  simp only [run, h1, h2]
  cases hb : body [m] [some o] with
  | ok y => cases y <;> simp [needed, req, hb, bind, Res.bind]
  | err e => simp [needed, req, hb, bind, Res.bind]
  | panic => simp [needed, req, hb, bind, Res.bind]

theorem Js.run_method_used (h : Heap) (cs cls : Class) (self i : Handle) (body : List Obj → List (Option Obj) → Res Reply)
    (hu : (Used h self cs ∧ ∃ s, h[i]? = some s ∧ s.obj.cls = cls) ∨ (Used h i cls)) :
    (run h ⟨[(self, cs)], [req cls i], body⟩).2 = .err .value := by
  have h1 : ∃ h' x, takeArgs h [req cls i] = (h', .ok [x]) ∧ (Used h i cls → x = none) ∧ (Used h self cs → Used h' self cs) := by
    have : ∃ s, h[i]? = some s ∧ s.obj.cls = cls := by
      rcases hu with ⟨_, hx⟩ | ⟨o, ho, hc⟩
      · exact hx
      · exact ⟨_, ho, hc⟩
    obtain ⟨s, hs, hc⟩ := this
    refine ⟨h.set i { s with live := false }, if s.live then some s.obj else none, by simp [takeArgs, takeArg, req, hs, hc], ?_, ?_⟩
    · rintro ⟨o, ho, _⟩
      rw [hs] at ho
      cases ho
      rfl
    · rintro ⟨o, ho, hc2⟩
      refine ⟨o, ?_, hc2⟩
      by_cases hi : i = self
      · subst hi
        rw [hs] at ho
        cases ho
        have hlt : i < h.length := (List.getElem?_eq_some_iff.mp hs).1
        simp [hlt]
      · rw [List.getElem?_set_ne hi]; exact ho
  obtain ⟨h', x, ht, hx, hself⟩ := h1
  simp only [run, ht]
  have h2 : (readRefs h' [(self, cs)] = .err .value) ∨ ((∃ m, readRefs h' [(self, cs)] = .ok [m])) := by
    simp only [readRefs, readRef]
    cases h'[self]? with
    | none => exact .inl rfl
    | some s =>
      simp only
      split
      · split
        · exact .inr ⟨_, rfl⟩
        · exact .inl rfl
      · exact .inl rfl
  rcases h2 with h2 | ⟨m, h2⟩
  · simp [h2, bind, Res.bind]
  · rcases hu with ⟨hus, _⟩ | hui
    · obtain ⟨o, ho, hc⟩ := hself hus
      simp [readRefs, readRef, ho, hc, bind, Res.bind] at h2
    · simp [h2, hx hui, needed, req, bind, Res.bind]

theorem Js.wrap_answer {α : Type} (f : α → Obj) (r : Res α) : wrap f r = answer (fun a => .obj (f a)) r := by cases r <;> rfl
theorem Js.flag_answer (r : Res Bool) : flag r = answer .bool r := by cases r <;> rfl

theorem Js.run_worth {α : Type} {h : Heap} {cls : Class} {f : α → Obj} (get : Obj → Option α) (hget : ∀ a, get (f a) = some a) {i : Option Handle} {x : Option α}
    (hw : Worth h cls f i x) (g : Option α → Res Reply) : (run h ⟨[], [opt cls i], fun _ a => g (fst? get a)⟩).2 = g x := by
  cases hw with
  | undefined => exact (Js.run_opt h cls 0 _).2.2
  | usable i a ha hc =>
    rw [(Js.run_opt h cls i _).1 _ ha hc]
    simp [fst?, hget]
  | usedUp i hu => exact (Js.run_opt h cls i _).2.1 hu

/-- C106: Cigars and Sigers made in JavaScript are those of the library with the Verfer the argument is worth. -/
theorem C106_signatures (E : Env) (h : Heap) (i : Option Handle) (v : Option Matter) (hw : Worth h .verfer Obj.verfer i v) :
    (∀ code raw qb64b qb64 qb2, (run h (cigarNew E i code raw qb64b qb64 qb2)).2 = answer (fun c => .obj (.cigar c)) (Cigar.new E v code raw qb64b qb64 qb2)) ∧
    (∀ raw code, (run h (cigarNewWithRaw E raw i code)).2 = answer (fun c => .obj (.cigar c)) (Cigar.newWithRaw E raw v code)) ∧
    (∀ b, (run h (cigarNewWithQb64b E b i)).2 = answer (fun c => .obj (.cigar c)) (Cigar.newWithQb64b E b v)) ∧
    (∀ t, (run h (cigarNewWithQb64 E t i)).2 = answer (fun c => .obj (.cigar c)) (Cigar.newWithQb64 E t v)) ∧
    (∀ b, (run h (cigarNewWithQb2 E b i)).2 = answer (fun c => .obj (.cigar c)) (Cigar.newWithQb2 E b v)) ∧
    (∀ index ondex code raw qb64b qb64 qb2, (run h (sigerNew E i index ondex code raw qb64b qb64 qb2)).2 =
      answer (fun s => .obj (.siger s)) (Siger.new E v index ondex code raw qb64b qb64 qb2)) ∧
    (∀ raw index ondex code, (run h (sigerNewWithRaw E raw i index ondex code)).2 =
      answer (fun s => .obj (.siger s)) (Siger.newWithRaw E raw v index ondex code)) ∧
    (∀ b, (run h (sigerNewWithQb64b E b i)).2 = answer (fun s => .obj (.siger s)) (Siger.newWithQb64b E b v)) ∧
    (∀ t, (run h (sigerNewWithQb64 E t i)).2 = answer (fun s => .obj (.siger s)) (Siger.newWithQb64 E t v)) ∧
    (∀ b, (run h (sigerNewWithQb2 E b i)).2 = answer (fun s => .obj (.siger s)) (Siger.newWithQb2 E b v)) := by
  have key := fun g => Js.run_worth Obj.verfer? (fun _ => rfl) hw g
  refine ⟨?_, ?_, ?_, ?_, ?_, ?_, ?_, ?_, ?_, ?_⟩ <;> intros <;> rw [← Js.wrap_answer]
  · exact key (fun v => wrap .cigar (Cigar.new E v _ _ _ _ _))
  · exact key (fun v => wrap .cigar (Cigar.newWithRaw E _ v _))
  · exact key (fun v => wrap .cigar (Cigar.newWithQb64b E _ v))
  · exact key (fun v => wrap .cigar (Cigar.newWithQb64 E _ v))
  · exact key (fun v => wrap .cigar (Cigar.newWithQb2 E _ v))
  · exact key (fun v => wrap .siger (Siger.new E v _ _ _ _ _ _ _))
  · exact key (fun v => wrap .siger (Siger.newWithRaw E _ v _ _ _))
  · exact key (fun v => wrap .siger (Siger.newWithQb64b E _ v))
  · exact key (fun v => wrap .siger (Siger.newWithQb64 E _ v))
  · exact key (fun v => wrap .siger (Siger.newWithQb2 E _ v))

/-- C106: Numbers and Seqners made in JavaScript are those of the library with the number the argument is worth (as far as the conversion of C68 keeps it). -/
theorem C106_numbers (E : Env) (h : Heap) (i : Option Handle) (x : Option Wasm.U128) (hw : Worth h .u128 Obj.u128 i x) :
    (∀ numh code raw qb64b qb64 qb2, (run h (numberNew E i numh code raw qb64b qb64 qb2)).2 =
      answer (fun m => .obj (.number m)) (Number.new E (x.map Wasm.fromU128) numh code raw qb64b qb64 qb2)) ∧
    (∀ snh code raw qb64b qb64 qb2, (run h (seqnerNew E i snh code raw qb64b qb64 qb2)).2 =
      answer (fun m => .obj (.seqner m)) (Seqner.new E (x.map Wasm.fromU128) snh code raw qb64b qb64 qb2)) ∧
    (∀ k y, i = some k → x = some y → (run h (numberNewWithNum E k)).2 = answer (fun m => .obj (.number m)) (Number.newWithNum E (Wasm.fromU128 y)) ∧
      (run h (seqnerNewWithSn E k)).2 = answer (fun m => .obj (.seqner m)) (Seqner.newWithSn E (Wasm.fromU128 y))) ∧
    (∀ k, Used h k .u128 → (run h (numberNewWithNum E k)).2 = .err .value ∧ (run h (seqnerNewWithSn E k)).2 = .err .value) := by
  have key := fun g => Js.run_worth Obj.u128? (fun _ => rfl) hw g
  refine ⟨?_, ?_, ?_, ?_⟩
  · intros
    rw [← Js.wrap_answer]
    exact key (fun x => wrap .number (Number.new E (x.map Wasm.fromU128) _ _ _ _ _ _))
  · intros
    rw [← Js.wrap_answer]
    exact key (fun x => wrap .seqner (Seqner.new E (x.map Wasm.fromU128) _ _ _ _ _ _))
  · rintro k y rfl rfl
    cases hw with
    | usable _ _ ha hc =>
      rw [← Js.wrap_answer, ← Js.wrap_answer]
      refine ⟨?_, ?_⟩
      · unfold numberNewWithNum
        rw [(Js.run_req h .u128 k _).1 _ ha hc]
        simp only [fst?, Obj.u128?, Option.bind_some]
      · unfold seqnerNewWithSn
        rw [(Js.run_req h .u128 k _).1 _ ha hc]
        simp only [fst?, Obj.u128?, Option.bind_some]
  · intro k hu
    exact ⟨(Js.run_req h .u128 k _).2 hu, (Js.run_req h .u128 k _).2 hu⟩

/-- C106: Saiders, Prefixers, Serders and Tholders made in JavaScript from one document. -/
theorem C106_documents (E : Env) (F : Str → Option Str) (H : Hash) (h : Heap) (i : Option Handle) (x : Option Str) (hw : Worth h .value Obj.value i x) :
    (∀ label kind ignore code raw qb64b qb64 qb2, (run h (saiderNew E F H i label kind ignore code raw qb64b qb64 qb2)).2 =
      answer (fun m => .obj (.saider m)) (Wasm.saiderNew E F H x label kind ignore code raw qb64b qb64 qb2)) ∧
    (∀ allows code raw qb64b qb64 qb2, (run h (prefixerNew E F H i allows code raw qb64b qb64 qb2)).2 =
      answer (fun m => .obj (.prefixer m)) (Wasm.prefixerNew E F H x allows code raw qb64b qb64 qb2)) ∧
    (∀ k t, i = some k → x = some t →
      (∀ label kind ignore code, (run h (saiderNewWithSad E F H k label kind ignore code)).2 =
        answer (fun m => .obj (.saider m)) (Wasm.saiderNewWithSad E F H t label kind ignore code)) ∧
      (∀ allows code, (run h (prefixerNewWithKed E F H k allows code)).2 = answer (fun m => .obj (.prefixer m)) (Wasm.prefixerNewWithKed E F H t allows code)) ∧
      (∀ code kind, (run h (serderNewWithKed E F H k code kind)).2 = answer (fun m => .obj (.serder m)) (Wasm.serderNewWithKed E F H t code kind)) ∧
      (run h (tholderNewWithThold E F k)).2 = answer (fun m => .obj (.tholder m)) (Wasm.tholderNew E F (some t) none none) ∧
      (run h (tholderNewWithSith E F k)).2 = answer (fun m => .obj (.tholder m)) (Wasm.tholderNew E F none none (some t)) ∧
      (∀ self m prefixed versioned kind label ignore, Alive h self (.saider m) → (run h (saiderVerify E F H self k prefixed versioned kind label ignore)).2 =
        answer .bool (Wasm.saiderVerify E F H m t prefixed versioned kind label ignore)) ∧
      (∀ self m prefixed, Alive h self (.prefixer m) → (run h (prefixerVerify E F H self k prefixed)).2 =
        answer .bool (Wasm.prefixerVerify E F H m t prefixed))) ∧
    (∀ k, Used h k .value →
      (∀ label kind ignore code, (run h (saiderNewWithSad E F H k label kind ignore code)).2 = .err .value) ∧
      (∀ allows code, (run h (prefixerNewWithKed E F H k allows code)).2 = .err .value) ∧
      (∀ code kind, (run h (serderNewWithKed E F H k code kind)).2 = .err .value) ∧
      (run h (tholderNewWithThold E F k)).2 = .err .value ∧ (run h (tholderNewWithSith E F k)).2 = .err .value ∧
      (∀ self prefixed versioned kind label ignore, (run h (saiderVerify E F H self k prefixed versioned kind label ignore)).2 = .err .value) ∧
      (∀ self prefixed, (run h (prefixerVerify E F H self k prefixed)).2 = .err .value)) := by
  have key := fun g => Js.run_worth Obj.value? (fun _ => rfl) hw g
  refine ⟨?_, ?_, ?_, ?_⟩
  · intros
    rw [← Js.wrap_answer]
    exact key (fun x => wrap .saider (Wasm.saiderNew E F H x _ _ _ _ _ _ _ _))
  · intros
    rw [← Js.wrap_answer]
    exact key (fun x => wrap .prefixer (Wasm.prefixerNew E F H x _ _ _ _ _ _))
  · rintro k t rfl rfl
    cases hw with
    | usable _ _ ha hc =>
      have hne : ∀ self o, Alive h self o → o.cls ≠ .value → self ≠ k := by
        rintro self o ho hn rfl
        have := (show h[self]? = some ⟨o, true⟩ from ho).symm.trans (show h[self]? = some ⟨.value t, true⟩ from ha)
        cases this
        exact hn rfl
      refine ⟨?_, ?_, ?_, ?_, ?_, ?_, ?_⟩
      · intros; rw [← Js.wrap_answer]; exact (Js.run_req h .value k _).1 _ ha hc
      · intros; rw [← Js.wrap_answer]; exact (Js.run_req h .value k _).1 _ ha hc
      · intros; rw [← Js.wrap_answer]; exact (Js.run_req h .value k _).1 _ ha hc
      · rw [← Js.wrap_answer]; exact (Js.run_req h .value k _).1 _ ha hc
      · rw [← Js.wrap_answer]; exact (Js.run_req h .value k _).1 _ ha hc
      · intro self m _ _ _ _ _ hm
        rw [← Js.flag_answer]
        exact Js.run_method h .saider .value self k _ _ _ hm rfl ha hc (hne self _ hm (by simp [Obj.cls]))
      · intro self m _ hm
        rw [← Js.flag_answer]
        exact Js.run_method h .prefixer .value self k _ _ _ hm rfl ha hc (hne self _ hm (by simp [Obj.cls]))
  · intro k hu
    refine ⟨?_, ?_, ?_, ?_, ?_, ?_, ?_⟩ <;> intros
    · exact (Js.run_req h .value k _).2 hu
    · exact (Js.run_req h .value k _).2 hu
    · exact (Js.run_req h .value k _).2 hu
    · exact (Js.run_req h .value k _).2 hu
    · exact (Js.run_req h .value k _).2 hu
    · exact Js.run_method_used h .saider .value _ k _ (.inr hu)
    · exact Js.run_method_used h .prefixer .value _ k _ (.inr hu)

/-- C106: the constructors with two object arguments, when they are not the same object. -/
theorem C106_pairs (E : Env) (F : Str → Option Str) (H : Hash) (h : Heap) (i j : Option Handle) (x : Option Str) (hx : Worth h .value Obj.value i x) :
    (∀ y, Worth h .serder Obj.serder j y → ∀ code raw kind, (run h (serderNew E F H code raw kind i j)).2 =
      answer (fun s => .obj (.serder s)) (Wasm.serderNew E F H code raw kind x y)) ∧
    (∀ y, Worth h .value Obj.value j y → (i = none ∨ i ≠ j) → ∀ limen, (run h (tholderNew E F i limen j)).2 =
      answer (fun t => .obj (.tholder t)) (Wasm.tholderNew E F x limen y)) := by
  have hi : ∀ k, i = some k → (∃ o, Alive h k o ∧ o.cls = .value ∧ x.map Obj.value = some o) ∨ (Used h k .value ∧ x.map Obj.value = none) := by
    rintro k rfl
    cases hx with
    | usable _ a ha hc => exact .inl ⟨_, ha, hc, rfl⟩
    | usedUp _ hu => exact .inr ⟨hu, rfl⟩
  have hi0 : i = none → x.map Obj.value = none := by
    rintro rfl
    cases hx
    rfl
  have hgx : fst? Obj.value? [x.map Obj.value, (none : Option Obj)] = x := by cases x <;> rfl
  refine ⟨?_, ?_⟩
  · intro y hy code raw kind
    rw [← Js.wrap_answer]
    have := Js.run_opt2 h .value .serder i j (x.map Obj.value) (y.map Obj.serder)
      (fun _ a => wrap .serder (Wasm.serderNew E F H code raw kind (fst? Obj.value? a) (snd? Obj.serder? a))) hi hi0 ?_ ?_
    · refine this.trans ?_
      cases x <;> cases y <;> rfl
    · rintro k rfl
      cases hy with
      | usable _ a ha hc =>
        refine .inl ⟨_, ha, hc, .inl ⟨?_, rfl⟩⟩
        rintro rfl
        rcases hi k rfl with ⟨o, ho, hoc, _⟩ | ⟨⟨o, ho, _⟩, _⟩
        · have := (show h[k]? = some ⟨o, true⟩ from ho).symm.trans (show h[k]? = some ⟨.serder a, true⟩ from ha)
          cases this
          cases hoc
        · have := ho.symm.trans (show h[k]? = some ⟨.serder a, true⟩ from ha)
          cases this
      | usedUp _ hu => exact .inr ⟨hu, rfl⟩
    · rintro rfl
      cases hy
      rfl
  · intro y hy hne limen
    rw [← Js.wrap_answer]
    have := Js.run_opt2 h .value .value i j (x.map Obj.value) (y.map Obj.value)
      (fun _ a => wrap .tholder (Wasm.tholderNew E F (fst? Obj.value? a) limen (snd? Obj.value? a))) hi hi0 ?_ ?_
    · refine this.trans ?_
      cases x <;> cases y <;> rfl
    · rintro k rfl
      cases hy with
      | usable _ a ha hc =>
        refine .inl ⟨_, ha, hc, .inl ⟨?_, rfl⟩⟩
        rcases hne with rfl | hne
        · exact fun hc => by cases hc
        · exact hne
      | usedUp _ hu => exact .inr ⟨hu, rfl⟩
    · rintro rfl
      cases hy
      rfl

/-- C106: comparing two Digers uses neither up; nor does any method without object arguments use up its object; a used-up object has no methods left. -/
theorem C106_looked_at (E : Env) (H : Hash) (h : Heap) :
    (∀ i j d x ser, Alive h i (.diger d) → Alive h j (.diger x) →
      run h (compareDiger E H i ser j) = (h, answer .bool (Wasm.digerCompareDiger E H d ser x))) ∧
    (∀ i cls o f, Alive h i o → o.cls = cls → (run h (look i cls f)).2 = f o ∧ ∀ (j : Handle) s, h[j]? = some s → (run h (look i cls f)).1[j]? = some s) ∧
    (∀ i cls f, Used h i cls → run h (look i cls f) = (h, .err .value)) := by
  refine ⟨?_, ?_, ?_⟩
  · intro i j d x ser hi hj
    have h2 : readRefs h [(i, .diger), (j, .diger)] = .ok [.diger d, .diger x] := by
      simp [readRefs, readRef, show h[i]? = some ⟨.diger d, true⟩ from hi, show h[j]? = some ⟨.diger x, true⟩ from hj, Obj.cls, bind, Res.bind]
    simp only [run, compareDiger, takeArgs, h2]
    cases hd : Wasm.digerCompareDiger E H d ser x <;> simp [needed, flag, hd, bind, Res.bind, answer]
  · intro i cls o f ho hc
    have h2 : readRefs h [(i, cls)] = .ok [o] := by
      simp [readRefs, readRef, show h[i]? = some ⟨o, true⟩ from ho, hc, bind, Res.bind]
    refine ⟨?_, ?_⟩
    · simp only [run, look, takeArgs, h2]
      cases hf : f o with
      | ok y => cases y <;> simp [needed, hf, bind, Res.bind]
      | err e => simp [needed, hf, bind, Res.bind]
      | panic => simp [needed, hf, bind, Res.bind]
    · intro j s hs
      have := (C106_kept [look i cls f] h j s hs).1 (by
        intro c hc' hh
        cases List.mem_singleton.mp hc'
        obtain ⟨a, ha, _⟩ := hh
        cases ha)
      exact this
  · rintro i cls f ⟨o, ho, hc⟩
    simp [run, look, takeArgs, readRefs, readRef, ho, hc, bind, Res.bind]

/-- C106: a constructor without object arguments gives a new usable object, or nothing changes; `free` uses its object up and answers nothing, and a second `free` is an
error, as is every later method. -/
theorem C106_made_and_freed (h : Heap) :
    (∀ o, run h (make (.ok o)) = (h ++ [⟨o, true⟩], .ok (.obj o))) ∧
    (∀ e, run h (make (.err e)) = (h, .err e)) ∧
    (∀ i o, Alive h i o → (run h (free i o.cls)).2 = .ok .nothing ∧ Used (run h (free i o.cls)).1 i o.cls ∧
      (∀ (j : Handle) s, j ≠ i → h[j]? = some s → (run h (free i o.cls)).1[j]? = some s) ∧
      ∀ f, (run (run h (free i o.cls)).1 (look i o.cls f)).2 = .err .value) ∧
    (∀ i cls, Used h i cls → run h (free i cls) = (h, .err .value)) := by
  have hfree : ∀ i o, Alive h i o → run h (free i o.cls) = (h.set i ⟨o, false⟩, .ok .nothing) := by
    intro i o ho
    simp [run, free, takeArgs, takeArg, req, show h[i]? = some ⟨o, true⟩ from ho, readRefs, needed, bind, Res.bind]
  refine ⟨fun _ => rfl, fun _ => rfl, ?_, ?_⟩
  · intro i o ho
    have hlt : i < h.length := (List.getElem?_eq_some_iff.mp ho).1
    have hu : Used (h.set i ⟨o, false⟩) i o.cls := ⟨o, by simp [hlt], rfl⟩
    rw [hfree i o ho]
    refine ⟨rfl, hu, ?_, ?_⟩
    · intro j s hj hs
      rw [List.getElem?_set_ne (Ne.symm hj)]; exact hs
    · intro f
      simp [run, look, takeArgs, readRefs, readRef, hlt, bind, Res.bind]
  · rintro i cls ⟨o, ho, hc⟩
    have hlt := (List.getElem?_eq_some_iff.mp ho).1
    have hset : h.set i ⟨o, false⟩ = h := by
      apply List.ext_getElem?
      intro j
      by_cases hj : j = i
      · subst hj; simp [hlt]; rw [List.getElem?_eq_getElem hlt] at ho; exact (Option.some.inj ho).symm
      · rw [List.getElem?_set_ne (Ne.symm hj)]
    simp [run, free, takeArgs, takeArg, req, ho, hc, readRefs, needed, bind, Res.bind, hset]

/-! ## Defects -/

/-- C106, defect: the second Cigar or Siger a program makes with one Verfer carries, without any error, a Verfer that is not the one it was given and that accepts
no signature — in every state in which the Verfer was usable before the first, whatever the arguments of the two calls. -/
theorem C106_second_signature (E : Env) (C : Crypto) (h : Heap) (i : Handle) (v : Matter) (hv : Alive h i (.verfer v))
    (first : Call) (hf : (∃ code raw qb64b qb64 qb2, first = cigarNew E (some i) code raw qb64b qb64 qb2) ∨
      (∃ index ondex code raw qb64b qb64 qb2, first = sigerNew E (some i) index ondex code raw qb64b qb64 qb2)) :
    (∀ code raw qb64b qb64 qb2 c, (run (run h first).1 (cigarNew E (some i) code raw qb64b qb64 qb2)).2 = .ok (.obj (.cigar c)) →
      ∀ sig ser, ∃ e, Verfer.verify C c.verfer sig ser = .err e) ∧
    (∀ index ondex code raw qb64b qb64 qb2 s, (run (run h first).1 (sigerNew E (some i) index ondex code raw qb64b qb64 qb2)).2 = .ok (.obj (.siger s)) →
      ∀ sig ser, ∃ e, Verfer.verify C s.verfer sig ser = .err e) := by
  have harg : first.args = [opt .verfer (some i)] ∧ first.refs = [] := by
    rcases hf with ⟨_, _, _, _, _, rfl⟩ | ⟨_, _, _, _, _, _, _, rfl⟩ <;> exact ⟨rfl, rfl⟩
  have ht : Typed h first := by
    refine ⟨?_, ?_⟩
    · intro a ha
      rw [harg.1] at ha
      cases List.mem_singleton.mp ha
      refine ⟨fun hn => absurd hn (by simp [opt]), fun k hk => ?_⟩
      cases hk
      exact ⟨_, hv, rfl⟩
    · intro r hr
      rw [harg.2] at hr
      cases hr
  have hused : Used (run h first).1 i .verfer := by
    refine ⟨.verfer v, ?_, rfl⟩
    refine ((C106_call h first ht).1 i _ hv).1 ?_
    exact ⟨opt .verfer (some i), by rw [harg.1]; exact List.mem_singleton.mpr rfl, rfl⟩
  have hw : Worth (run h first).1 .verfer Obj.verfer (some i) none := .usedUp i hused
  obtain ⟨hc, _, _, _, _, hs, _⟩ := C106_signatures E _ _ _ hw
  obtain ⟨_, _, _, hk1, hk2, _⟩ := C102_keys E C
  refine ⟨fun code raw qb64b qb64 qb2 c hr => ?_, fun index ondex code raw qb64b qb64 qb2 s hr => ?_⟩
  · rw [hc] at hr
    cases hn : Cigar.new E none code raw qb64b qb64 qb2 with
    | ok c' => rw [hn] at hr; cases hr; exact hk1 _ _ _ _ _ _ hn
    | err e => rw [hn] at hr; cases hr
    | panic => rw [hn] at hr; cases hr
  · rw [hs] at hr
    cases hn : Siger.new E none index ondex code raw qb64b qb64 qb2 with
    | ok c' => rw [hn] at hr; cases hr; exact hk2 _ _ _ _ _ _ _ _ hn
    | err e => rw [hn] at hr; cases hr
    | panic => rw [hn] at hr; cases hr

/-- C106, defect: a sequence number (`serder.sn()`, `number.num()`, …) a program has already handed over counts as no argument: the second Number or Seqner made of it is
zero, without any error, whatever the number was. -/
theorem C106_second_number (E : Env) (h : Heap) (i : Handle) (x : Wasm.U128) (hx : Alive h i (.u128 x))
    (first : Call) (hf : first ∈ [numberNew E (some i) none none none none none none, seqnerNew E (some i) none none none none none none,
      numberNewWithNum E i, seqnerNewWithSn E i]) :
    (∃ m, (run (run h first).1 (numberNew E (some i) none none none none none none)).2 = .ok (.obj (.number m)) ∧ Number.num m = .ok 0) ∧
    (∃ m, (run (run h first).1 (seqnerNew E (some i) none none none none none none)).2 = .ok (.obj (.seqner m)) ∧ Seqner.sn m = .ok 0) := by
  have harg : (∃ b, first.args = [⟨some i, .u128, b⟩]) ∧ first.refs = [] := by
    simp only [List.mem_cons, List.not_mem_nil, or_false] at hf
    rcases hf with rfl | rfl | rfl | rfl <;> exact ⟨⟨_, rfl⟩, rfl⟩
  obtain ⟨⟨b, hb⟩, hr⟩ := harg
  have ht : Typed h first := by
    refine ⟨?_, ?_⟩
    · intro a ha
      rw [hb] at ha
      cases List.mem_singleton.mp ha
      refine ⟨fun hn => absurd hn (by simp), fun k hk => ?_⟩
      cases hk
      exact ⟨_, hx, rfl⟩
    · intro r hr'
      rw [hr] at hr'
      cases hr'
  have hused : Used (run h first).1 i .u128 := by
    refine ⟨.u128 x, ?_, rfl⟩
    refine ((C106_call h first ht).1 i _ hx).1 ?_
    exact ⟨_, by rw [hb]; exact List.mem_singleton.mpr rfl, rfl⟩
  have hw : Worth (run h first).1 .u128 Obj.u128 (some i) none := .usedUp i hused
  obtain ⟨hn, hs, _⟩ := C106_numbers E _ _ _ hw
  have e1 : Number.new E none none none none none none none = Number.newWithNum E 0 := rfl
  have e2 : Seqner.new E none none none none none none none = Seqner.newWithSn E 0 := rfl
  obtain ⟨m1, m2, _, h1, h2, _, h4, h5, _⟩ := (C78_numbers E).1 0 (by decide)
  refine ⟨⟨m1, ?_, h2⟩, ⟨m2, ?_, h5⟩⟩
  · rw [hn, Option.map_none, e1, h1]; rfl
  · rw [hs, Option.map_none, e2, h4]; rfl

/-- C106, defect: the same document handed over twice in one call counts once: as the first of the two arguments. -/
theorem C106_same_document (E : Env) (F : Str → Option Str) (h : Heap) (i : Handle) (t : Str) (hx : Alive h i (.value t)) (limen : Option (List UInt8)) :
    (run h (tholderNew E F (some i) limen (some i))).2 = answer (fun t => .obj (.tholder t)) (Wasm.tholderNew E F (some t) limen none) := by
  rw [← Js.wrap_answer]
  exact Js.run_opt2 h .value .value (some i) (some i) (some (.value t)) none
    (fun _ a => wrap .tholder (Wasm.tholderNew E F (fst? Obj.value? a) limen (snd? Obj.value? a)))
    (fun k hk => by cases hk; exact .inl ⟨_, hx, rfl, rfl⟩) (fun hn => by cases hn)
    (fun k hk => by cases hk; exact .inl ⟨_, hx, rfl, .inr ⟨rfl, rfl⟩⟩) (fun hn => by cases hn)

/-! ## A program: a Verfer is made, then two Cigars with it, then it is asked for its code -/

namespace Js.Demo
def v : Matter := { code := lit "B", size := 0, raw := List.replicate 32 7 }
def sig (b : UInt8) : List UInt8 := List.replicate 64 b
def prog : List Call :=
  [make (.ok (.verfer v)),
   cigarNew Env.release (some 0) (some (lit "0B")) (some (sig 1)) none none none,
   cigarNew Env.release (some 0) (some (lit "0B")) (some (sig 2)) none none none,
   look 0 .verfer (fun _ => .ok .nothing)]

/-- The Verfer a Cigar of the heap carries. -/
def carried (h : Heap) (i : Handle) : Option Matter :=
  match h[i]? with
  | some ⟨.cigar c, _⟩ => some c.verfer
  | _ => none

example : carried (after [] prog) 1 = some v := by decide +kernel
example : carried (after [] prog) 2 = some Verfer.default := by decide +kernel
example : carried (after [] prog) 2 ≠ carried (after [] prog) 1 := by decide +kernel
example : (after [] prog).map Slot.live = [false, true, true] := by decide +kernel
example : (run (after [] (prog.take 3)) (look 0 .verfer (fun _ => .ok .nothing))).2 = .err .value := rfl

example : TypedAll [] prog := by
  refine ⟨⟨by simp [make], by simp [make]⟩, ⟨?_, by simp [cigarNew]⟩, ⟨?_, by simp [cigarNew]⟩, ⟨by simp [look], ?_⟩, trivial⟩
  · intro a ha
    cases List.mem_singleton.mp ha
    exact ⟨fun hn => absurd hn (by simp [opt]), fun i hi => by cases hi; exact ⟨_, rfl, rfl⟩⟩
  · intro a ha
    cases List.mem_singleton.mp ha
    exact ⟨fun hn => absurd hn (by simp [opt]), fun i hi => by cases hi; exact ⟨_, rfl, rfl⟩⟩
  · intro r hr
    cases List.mem_singleton.mp hr
    exact ⟨_, rfl, rfl⟩

example : Alive (after [] (prog.take 1)) 0 (.verfer v) := rfl

/-- C106_made_and_freed: the Verfer is freed, then freed again, then asked for its code. -/
example : (run (after [] (prog.take 1)) (free 0 .verfer)).2 = .ok .nothing ∧
    (after [] [make (.ok (.verfer v)), free 0 .verfer]).map Slot.live = [false] ∧
    (run (after [] [make (.ok (.verfer v)), free 0 .verfer]) (free 0 .verfer)).2 = .err .value := ⟨rfl, rfl, rfl⟩

/-- A Diger where a Verfer is declared. -/
example : ¬ Typed [⟨.diger v, true⟩] (cigarNew Env.release (some 0) (some (lit "0B")) (some (sig 1)) none none none) := by
  rintro ⟨h, _⟩
  obtain ⟨s, hs, hc⟩ := (h _ (List.mem_singleton.mpr rfl)).2 0 rfl
  cases hs
  cases hc
end Js.Demo

end Cesride
