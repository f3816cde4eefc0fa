import Verif.Model.Dat
import Verif.Spec.JsonText

/-! # What a document written down in a program means, and what it is to paste a JSON text into a program -/

namespace Cesride
namespace Spec
namespace Written
open Native
open JsonText (Blank Body Num merged)

mutual
/-- `Lit t v`: the token tree `t` writes the document `v`. -/
inductive Lit : Tok → Value → Prop
  | null : Lit .null .null
  | yes : Lit .yes (.bool true)
  | no : Lit .no (.bool false)
  | expr {v} : Lit (.expr v) v
  /-- Elements in brackets; commas before the first element mean nothing. -/
  | arr {n ts a} : Items ts a → Lit (.bracket (List.replicate n .comma ++ ts)) (.arr a)
  /-- Entries in braces: each key once, at the place of its first entry, with the value of its last. -/
  | obj {ts es} : Entries ts es → Lit (.brace ts) (.obj (merged es))
/-- Elements with commas between them; one more at the end is allowed. -/
inductive Items : List Tok → List Value → Prop
  | nil : Items [] []
  | last {t v} : Lit t v → Items [t] [v]
  | more {t v ts a} : Lit t v → Items ts a → Items (t :: .comma :: ts) (v :: a)
/-- Entries with commas between them; one more at the end is allowed. -/
inductive Entries : List Tok → List (Str × Value) → Prop
  | nil : Entries [] []
  | last {k t v} : Lit t v → Entries [.expr (.str k), .colon, t] [(k, v)]
  | more {k t v ts es} : Lit t v → Entries ts es → Entries (.expr (.str k) :: .colon :: t :: .comma :: ts) ((k, v) :: es)
end

mutual
/-- `Pasted F n s t`: the JSON text `s`, pasted into a program, is the token tree `t`. A text or a number is an expression with the value it has in JSON. (Rust reads the
literals like that when the texts use no escapes that only JSON has, and the numbers are written for the types they need.) At most `n` arrays and objects inside one another. -/
inductive Pasted (F : Str → Option Str) : Nat → Str → Tok → Prop
  | null {n} : Pasted F n (lit "null") .null
  | yes {n} : Pasted F n (lit "true") .yes
  | no {n} : Pasted F n (lit "false") .no
  | str {n t s} : Body t s → Pasted F n (ch '"' :: (t ++ [ch '"'])) (.expr (.str s))
  | num {n t v} : Num F t v → Pasted F n t (.expr v)
  | arr0 {n w} : Blank w → Pasted F (n + 1) (ch '[' :: (w ++ [ch ']'])) (.bracket [])
  | arr {n s ts} : PastedItems F n s ts → Pasted F (n + 1) (ch '[' :: (s ++ [ch ']'])) (.bracket ts)
  | obj0 {n w} : Blank w → Pasted F (n + 1) (ch '{' :: (w ++ [ch '}'])) (.brace [])
  | obj {n s ts} : PastedEntries F n s ts → Pasted F (n + 1) (ch '{' :: (s ++ [ch '}'])) (.brace ts)
/-- One or more elements between commas, blanks around each. -/
inductive PastedItems (F : Str → Option Str) : Nat → Str → List Tok → Prop
  | one {n w s t w'} : Blank w → Pasted F n s t → Blank w' → PastedItems F n (w ++ s ++ w') [t]
  | more {n w s t w' r ts} : Blank w → Pasted F n s t → Blank w' → PastedItems F n r ts → PastedItems F n (w ++ s ++ w' ++ ch ',' :: r) (t :: .comma :: ts)
/-- One or more entries between commas, blanks around each key and value. -/
inductive PastedEntries (F : Str → Option Str) : Nat → Str → List Tok → Prop
  | one {n w k key w1 w2 s t w3} : Blank w → Body k key → Blank w1 → Blank w2 → Pasted F n s t → Blank w3 →
      PastedEntries F n (w ++ ch '"' :: (k ++ ch '"' :: (w1 ++ ch ':' :: (w2 ++ s ++ w3)))) [.expr (.str key), .colon, t]
  | more {n w k key w1 w2 s t w3 r ts} : Blank w → Body k key → Blank w1 → Blank w2 → Pasted F n s t → Blank w3 → PastedEntries F n r ts →
      PastedEntries F n (w ++ ch '"' :: (k ++ ch '"' :: (w1 ++ ch ':' :: (w2 ++ s ++ w3 ++ ch ',' :: r)))) (.expr (.str key) :: .colon :: t :: .comma :: ts)
end

end Written
end Spec
end Cesride
