import Verif.Model.Wasm
import Verif.Model.Short

/-!
# Model of the objects of the JavaScript bindings (`wasm/src/primitives/*.rs`)

A JavaScript object of a binding class holds a pointer to a Rust object. The code that `wasm-bindgen` 0.2.84 (`wasm/Cargo.toml`) generates for a method decides what becomes
of the objects passed to it: an argument of type `&T`, and `&self`, only reads the pointer; an argument of type `T` or `Option<T>` takes the Rust object over and
sets the pointer of the JavaScript object to null (`__destroy_into_raw`), in the order of the arguments and before the Rust function runs. On the Rust side a null
pointer is `None` for an argument of type `Option<T>` and an exception (`null pointer passed to rust`) for all others. An object of another class is an exception
(`_assertClass`). This is the code generated without `--debug`.

An exception is `err .value` here, as is every error of a binding (`wasm/src/error.rs` 13-17). Objects are never altered in place: no binding has a `&mut self` method.
-/

namespace Cesride.Js

/-- The classes of the bindings (the `wasm_bindgen` structures of `wasm/src`). -/
inductive Class
  | verfer | diger | u128 | value | serder | cigar | siger | number | seqner | saider | prefixer | tholder | signer | signers | salter | bexter | dater
  deriving DecidableEq, Repr

/-- The Rust object behind a JavaScript object. -/
inductive Obj
  | verfer (m : Matter) | diger (m : Matter) | u128 (x : Wasm.U128) | value (t : Str) | serder (s : Sadder) | cigar (c : Cigar) | siger (s : Siger)
  | number (m : Matter) | seqner (m : Matter) | saider (m : Matter) | prefixer (m : Matter) | tholder (t : Tholder) | signer (s : Signer)
  | signers (s : Wasm.Signers) | salter (s : Salter) | bexter (m : Matter) | dater (m : Matter)

/-- The class of an object. -/
def Obj.cls : Obj → Class
  | .verfer _ => .verfer | .diger _ => .diger | .u128 _ => .u128 | .value _ => .value | .serder _ => .serder | .cigar _ => .cigar | .siger _ => .siger
  | .number _ => .number | .seqner _ => .seqner | .saider _ => .saider | .prefixer _ => .prefixer | .tholder _ => .tholder | .signer _ => .signer
  | .signers _ => .signers | .salter _ => .salter | .bexter _ => .bexter | .dater _ => .dater

/-- `as_deref()` of an optional Verfer (`wasm/src/primitives/cigar.rs` 22, 38, 43, 48, 53, `siger.rs` 25, 46, 51, 56, 61). -/
def Obj.verfer? : Obj → Option Matter
  | .verfer m => some m
  | _ => none
/-- The content of a `U128` (`wasm/src/util.rs` 4-8). -/
def Obj.u128? : Obj → Option Wasm.U128
  | .u128 x => some x
  | _ => none
/-- The text of a `Value` (`wasm/src/util.rs` 22-23). -/
def Obj.value? : Obj → Option Str
  | .value t => some t
  | _ => none
/-- `sad.as_deref()` (`wasm/src/primitives/serder.rs` 29). -/
def Obj.serder? : Obj → Option Sadder
  | .serder s => some s
  | _ => none

/-- A JavaScript object: the object it was made for, and whether its pointer is still there. -/
structure Slot where
  obj : Obj
  live : Bool

/-- All JavaScript objects, in the order they were made; a handle is a position. -/
abbrev Heap := List Slot
abbrev Handle := Nat

/-- An argument of type `T` (required) or `Option<T>` (optional, `none`: undefined is passed). -/
structure Arg where
  handle : Option Handle
  cls : Class
  optional : Bool

/-- What a binding gives back: a new object, or a plain JavaScript value. -/
inductive Reply
  | obj (o : Obj)
  | bool (b : Bool)
  | nothing

/-- A call: the objects it only looks at (`&self` first), those it is handed, and the Rust function. -/
structure Call where
  refs : List (Handle × Class)
  args : List Arg
  body : List Obj → List (Option Obj) → Res Reply

/-- The generated code for one argument by value: class check, `__destroy_into_raw`. -/
def takeArg (h : Heap) (a : Arg) : Heap × Res (Option Obj) :=
  match a.handle with
  | none => if a.optional then (h, .ok none) else (h, .err .value)
  | some i =>
    match h[i]? with
    | none => (h, .err .value)
    | some s =>
      if s.obj.cls = a.cls then (h.set i { s with live := false }, .ok (if s.live then some s.obj else none))
      else (h, .err .value)

/-- The generated code for all arguments by value, in order. -/
def takeArgs (h : Heap) : List Arg → Heap × Res (List (Option Obj))
  | [] => (h, .ok [])
  | a :: rest =>
    match takeArg h a with
    | (h', .ok o) =>
      match takeArgs h' rest with
      | (h'', .ok os) => (h'', .ok (o :: os))
      | (h'', .err e) => (h'', .err e)
      | (h'', .panic) => (h'', .panic)
    | (h', .err e) => (h', .err e)
    | (h', .panic) => (h', .panic)

/-- An argument by reference: the pointer must not be null. -/
def readRef (h : Heap) (r : Handle × Class) : Res Obj :=
  match h[r.1]? with
  | none => .err .value
  | some s => if s.obj.cls = r.2 then (if s.live then .ok s.obj else .err .value) else .err .value

/-- All arguments by reference. -/
def readRefs (h : Heap) : List (Handle × Class) → Res (List Obj)
  | [] => .ok []
  | r :: rest => do
    let o ← readRef h r
    let os ← readRefs h rest
    .ok (o :: os)

/-- The Rust side: a required argument must not be null. -/
def needed : List Arg → List (Option Obj) → Bool
  | a :: as, o :: os => (a.optional || o.isSome) && needed as os
  | _, _ => true

/-- A call: the generated JavaScript takes the arguments over, the Rust side checks the pointers and runs the function, a new object gets a new handle. -/
def run (h : Heap) (c : Call) : Heap × Res Reply :=
  match takeArgs h c.args with
  | (h', .ok os) =>
    let r : Res Reply := do
      let refs ← readRefs h' c.refs
      if needed c.args os then c.body refs os else .err .value
    match r with
    | .ok (.obj o) => (h' ++ [⟨o, true⟩], r)
    | _ => (h', r)
  | (h', .err e) => (h', .err e)
  | (h', .panic) => (h', .panic)

/-- The objects after a history of calls. -/
def after (h : Heap) : List Call → Heap
  | [] => h
  | c :: cs => after (run h c).1 cs

/-! ## The bindings that are handed objects -/

section
variable (E : Env) (F : Str → Option Str) (H : Hash)

/-- An optional or required argument of a binding. -/
def opt (cls : Class) (h : Option Handle) : Arg := ⟨h, cls, true⟩
def req (cls : Class) (h : Handle) : Arg := ⟨some h, cls, false⟩

/-- Wrap the object a binding makes. -/
def wrap {α : Type} (f : α → Obj) (r : Res α) : Res Reply := do
  let a ← r
  .ok (.obj (f a))

/-- The answer of a check. -/
def flag (r : Res Bool) : Res Reply := do
  let b ← r
  .ok (.bool b)

/-- The one optional argument of a binding. -/
def fst? {α : Type} (get : Obj → Option α) : List (Option Obj) → Option α
  | o :: _ => o.bind get
  | [] => none
/-- The second optional argument of a binding. -/
def snd? {α : Type} (get : Obj → Option α) : List (Option Obj) → Option α
  | _ :: o :: _ => o.bind get
  | _ => none

/-- `wasm/src/primitives/cigar.rs` 13-31 `new`. -/
def cigarNew (verfer : Option Handle) (code : Option Str) (raw qb64b : Option (List UInt8)) (qb64 : Option Str) (qb2 : Option (List UInt8)) : Call :=
  ⟨[], [opt .verfer verfer], fun _ a => wrap .cigar (Cigar.new E (fst? Obj.verfer? a) code raw qb64b qb64 qb2)⟩
/-- `wasm/src/primitives/cigar.rs` 33-40 `new_with_raw`. -/
def cigarNewWithRaw (raw : List UInt8) (verfer : Option Handle) (code : Option Str) : Call :=
  ⟨[], [opt .verfer verfer], fun _ a => wrap .cigar (Cigar.newWithRaw E raw (fst? Obj.verfer? a) code)⟩
/-- `wasm/src/primitives/cigar.rs` 42-45 `new_with_qb64b`. -/
def cigarNewWithQb64b (qb64b : List UInt8) (verfer : Option Handle) : Call :=
  ⟨[], [opt .verfer verfer], fun _ a => wrap .cigar (Cigar.newWithQb64b E qb64b (fst? Obj.verfer? a))⟩
/-- `wasm/src/primitives/cigar.rs` 47-50 `new_with_qb64`. -/
def cigarNewWithQb64 (qb64 : Str) (verfer : Option Handle) : Call :=
  ⟨[], [opt .verfer verfer], fun _ a => wrap .cigar (Cigar.newWithQb64 E qb64 (fst? Obj.verfer? a))⟩
/-- `wasm/src/primitives/cigar.rs` 52-55 `new_with_qb2`. -/
def cigarNewWithQb2 (qb2 : List UInt8) (verfer : Option Handle) : Call :=
  ⟨[], [opt .verfer verfer], fun _ a => wrap .cigar (Cigar.newWithQb2 E qb2 (fst? Obj.verfer? a))⟩

/-- `wasm/src/primitives/siger.rs` 14-36 `new`. -/
def sigerNew (verfer : Option Handle) (index ondex : Option Nat) (code : Option Str) (raw qb64b : Option (List UInt8)) (qb64 : Option Str) (qb2 : Option (List UInt8)) :
    Call := ⟨[], [opt .verfer verfer], fun _ a => wrap .siger (Siger.new E (fst? Obj.verfer? a) index ondex code raw qb64b qb64 qb2)⟩
/-- `wasm/src/primitives/siger.rs` 38-48 `new_with_raw`. -/
def sigerNewWithRaw (raw : List UInt8) (verfer : Option Handle) (index ondex : Option Nat) (code : Option Str) : Call :=
  ⟨[], [opt .verfer verfer], fun _ a => wrap .siger (Siger.newWithRaw E raw (fst? Obj.verfer? a) index ondex code)⟩
/-- `wasm/src/primitives/siger.rs` 50-53 `new_with_qb64b`. -/
def sigerNewWithQb64b (qb64b : List UInt8) (verfer : Option Handle) : Call :=
  ⟨[], [opt .verfer verfer], fun _ a => wrap .siger (Siger.newWithQb64b E qb64b (fst? Obj.verfer? a))⟩
/-- `wasm/src/primitives/siger.rs` 55-58 `new_with_qb64`. -/
def sigerNewWithQb64 (qb64 : Str) (verfer : Option Handle) : Call :=
  ⟨[], [opt .verfer verfer], fun _ a => wrap .siger (Siger.newWithQb64 E qb64 (fst? Obj.verfer? a))⟩
/-- `wasm/src/primitives/siger.rs` 60-63 `new_with_qb2`. -/
def sigerNewWithQb2 (qb2 : List UInt8) (verfer : Option Handle) : Call :=
  ⟨[], [opt .verfer verfer], fun _ a => wrap .siger (Siger.newWithQb2 E qb2 (fst? Obj.verfer? a))⟩

/-- `wasm/src/primitives/number.rs` 14-34 `new`. -/
def numberNew (num : Option Handle) (numh code : Option Str) (raw qb64b : Option (List UInt8)) (qb64 : Option Str) (qb2 : Option (List UInt8)) : Call :=
  ⟨[], [opt .u128 num], fun _ a => wrap .number (Number.new E ((fst? Obj.u128? a).map Wasm.fromU128) numh code raw qb64b qb64 qb2)⟩
/-- `wasm/src/primitives/number.rs` 36-39 `new_with_num`. -/
def numberNewWithNum (num : Handle) : Call :=
  ⟨[], [req .u128 num], fun _ a => match fst? Obj.u128? a with
    | some x => wrap .number (Number.newWithNum E (Wasm.fromU128 x))
    | none => .err .value⟩
/-- `wasm/src/primitives/seqner.rs` 14-34 `new`. -/
def seqnerNew (sn : Option Handle) (snh code : Option Str) (raw qb64b : Option (List UInt8)) (qb64 : Option Str) (qb2 : Option (List UInt8)) : Call :=
  ⟨[], [opt .u128 sn], fun _ a => wrap .seqner (Seqner.new E ((fst? Obj.u128? a).map Wasm.fromU128) snh code raw qb64b qb64 qb2)⟩
/-- `wasm/src/primitives/seqner.rs` 36-39 `new_with_sn`. -/
def seqnerNewWithSn (sn : Handle) : Call :=
  ⟨[], [req .u128 sn], fun _ a => match fst? Obj.u128? a with
    | some x => wrap .seqner (Seqner.newWithSn E (Wasm.fromU128 x))
    | none => .err .value⟩

/-- `wasm/src/primitives/saider.rs` 32-60 `new`. -/
def saiderNew (sad : Option Handle) (label kind : Option Str) (ignore : Option (List Wasm.JsVal)) (code : Option Str) (raw qb64b : Option (List UInt8))
    (qb64 : Option Str) (qb2 : Option (List UInt8)) : Call :=
  ⟨[], [opt .value sad], fun _ a => wrap .saider (Wasm.saiderNew E F H (fst? Obj.value? a) label kind ignore code raw qb64b qb64 qb2)⟩
/-- `wasm/src/primitives/saider.rs` 114-134 `new_with_sad`. -/
def saiderNewWithSad (sad : Handle) (label kind : Option Str) (ignore : Option (List Wasm.JsVal)) (code : Option Str) : Call :=
  ⟨[], [req .value sad], fun _ a => match fst? Obj.value? a with
    | some t => wrap .saider (Wasm.saiderNewWithSad E F H t label kind ignore code)
    | none => .err .value⟩
/-- `wasm/src/primitives/saider.rs` 87-112 `verify`. -/
def saiderVerify (self sad : Handle) (prefixed versioned : Option Bool) (kind label : Option Str) (ignore : Option (List Wasm.JsVal)) : Call :=
  ⟨[(self, .saider)], [req .value sad], fun s a => match s, fst? Obj.value? a with
    | [.saider m], some t => flag (Wasm.saiderVerify E F H m t prefixed versioned kind label ignore)
    | _, _ => .err .value⟩

/-- `wasm/src/primitives/prefixer.rs` 14-38 `new`. -/
def prefixerNew (ked : Option Handle) (allows : Option (List Wasm.JsVal)) (code : Option Str) (raw qb64b : Option (List UInt8)) (qb64 : Option Str)
    (qb2 : Option (List UInt8)) : Call :=
  ⟨[], [opt .value ked], fun _ a => wrap .prefixer (Wasm.prefixerNew E F H (fst? Obj.value? a) allows code raw qb64b qb64 qb2)⟩
/-- `wasm/src/primitives/prefixer.rs` 40-52 `new_with_ked`. -/
def prefixerNewWithKed (ked : Handle) (allows : Option (List Wasm.JsVal)) (code : Option Str) : Call :=
  ⟨[], [req .value ked], fun _ a => match fst? Obj.value? a with
    | some t => wrap .prefixer (Wasm.prefixerNewWithKed E F H t allows code)
    | none => .err .value⟩
/-- `wasm/src/primitives/prefixer.rs` 74-76 `verify`. -/
def prefixerVerify (self ked : Handle) (prefixed : Option Bool) : Call :=
  ⟨[(self, .prefixer)], [req .value ked], fun s a => match s, fst? Obj.value? a with
    | [.prefixer m], some t => flag (Wasm.prefixerVerify E F H m t prefixed)
    | _, _ => .err .value⟩

/-- `wasm/src/primitives/serder.rs` 17-33 `new`. -/
def serderNew (code : Option Str) (raw : Option (List UInt8)) (kind : Option Str) (ked sad : Option Handle) : Call :=
  ⟨[], [opt .value ked, opt .serder sad], fun _ a => wrap .serder (Wasm.serderNew E F H code raw kind (fst? Obj.value? a) (snd? Obj.serder? a))⟩
/-- `wasm/src/primitives/serder.rs` 35-43 `new_with_ked`. -/
def serderNewWithKed (ked : Handle) (code kind : Option Str) : Call :=
  ⟨[], [req .value ked], fun _ a => match fst? Obj.value? a with
    | some t => wrap .serder (Wasm.serderNewWithKed E F H t code kind)
    | none => .err .value⟩

/-- `wasm/src/primitives/tholder.rs` 17-29 `new`. -/
def tholderNew (thold : Option Handle) (limen : Option (List UInt8)) (sith : Option Handle) : Call :=
  ⟨[], [opt .value thold, opt .value sith], fun _ a => wrap .tholder (Wasm.tholderNew E F (fst? Obj.value? a) limen (snd? Obj.value? a))⟩
/-- `wasm/src/primitives/tholder.rs` 31-34 `new_with_thold` (`src/core/tholder.rs` 121-123). -/
def tholderNewWithThold (thold : Handle) : Call :=
  ⟨[], [req .value thold], fun _ a => match fst? Obj.value? a with
    | some t => wrap .tholder (Wasm.tholderNew E F (some t) none none)
    | none => .err .value⟩
/-- `wasm/src/primitives/tholder.rs` 41-44 `new_with_sith` (`src/core/tholder.rs` 129-131). -/
def tholderNewWithSith (sith : Handle) : Call :=
  ⟨[], [req .value sith], fun _ a => match fst? Obj.value? a with
    | some t => wrap .tholder (Wasm.tholderNew E F none none (some t))
    | none => .err .value⟩

/-- `wasm/src/primitives/diger.rs` 67-69 `compare_diger`: the other Diger is only looked at. -/
def compareDiger (self : Handle) (ser : List UInt8) (other : Handle) : Call :=
  ⟨[(self, .diger), (other, .diger)], [], fun s _ => match s with
    | [.diger d, .diger x] => flag (Wasm.digerCompareDiger E H d ser x)
    | _ => .err .value⟩

/-- A constructor whose arguments are texts, numbers, bytes and arrays (`wasm/src/primitives/*.rs`, all other `new…`): it makes an object or fails. -/
def make (r : Res Obj) : Call := ⟨[], [], fun _ _ => wrap id r⟩

/-- A method without object arguments (`wasm/src/primitives/*.rs`, all other methods): it looks at its object and gives a value or a new object. -/
def look (self : Handle) (cls : Class) (f : Obj → Res Reply) : Call :=
  ⟨[(self, cls)], [], fun s _ => match s with
    | [o] => f o
    | _ => .err .value⟩

/-- The generated method `free`, which every class has. -/
def free (self : Handle) (cls : Class) : Call := ⟨[], [req cls self], fun _ _ => .ok .nothing⟩

end

end Cesride.Js
