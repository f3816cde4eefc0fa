import Verif.Model.Value

/-! # The grammar of JSON texts (RFC 8259), as relations between a text and the document it denotes

Independent of the reader's code. `F token` is the text of the floating point number nearest to a number token, `none` when
there is none (overflow). The number `n` bounds how many arrays and objects may be inside one another. -/

namespace Cesride
namespace Spec
namespace JsonText

/-- Space, tab, line feed, carriage return; any number of them. -/
def Blank (w : Str) : Prop := ∀ c ∈ w, c = 32 ∨ c = 9 ∨ c = 10 ∨ c = 13

/-- `c` is the hexadecimal digit, in either case, with value `x`. -/
def Digit16 (c : UInt8) (x : Nat) : Prop := (lit "0123456789abcdef")[x]? = some c ∨ (lit "0123456789ABCDEF")[x]? = some c

/-- Four hexadecimal digits with value `n`. -/
def Unit4 (h : Str) (n : Nat) : Prop :=
  ∃ a b c d x y z w, h = [a, b, c, d] ∧ Digit16 a x ∧ Digit16 b y ∧ Digit16 c z ∧ Digit16 d w ∧
    n = 4096 * x + 256 * y + 16 * z + w

/-- The two-character escapes: the second character, and the byte meant. -/
def escapes : List (UInt8 × UInt8) :=
  [(ch '"', 34), (ch '\\', 92), (ch '/', 47), (ch 'b', 8), (ch 'f', 12), (ch 'n', 10), (ch 'r', 13), (ch 't', 9)]

/-- `Body t s`: between the quotes stands `t`, which denotes the bytes `s`. A character is itself, unless it is a quote, a
backslash or a control character; or it is a short escape; or `\u` and four digits; or, outside the basic plane, two of
these with the surrogates of the character. -/
inductive Body : Str → Str → Prop
  | nil : Body [] []
  | plain {c : UInt8} {t s : Str} : 32 ≤ c → c ≠ ch '"' → c ≠ ch '\\' → Body t s → Body (c :: t) (c :: s)
  | short {e b : UInt8} {t s : Str} : (e, b) ∈ escapes → Body t s → Body (ch '\\' :: e :: t) (b :: s)
  | unit {c : Char} {h t s : Str} : c.toNat < 0x10000 → Unit4 h c.toNat → Body t s →
      Body (ch '\\' :: ch 'u' :: (h ++ t)) (String.utf8EncodeChar c ++ s)
  | pair {c : Char} {h l t s : Str} : 0x10000 ≤ c.toNat → Unit4 h (0xD800 + (c.toNat - 0x10000) / 1024) →
      Unit4 l (0xDC00 + (c.toNat - 0x10000) % 1024) → Body t s →
      Body (ch '\\' :: ch 'u' :: (h ++ ch '\\' :: ch 'u' :: (l ++ t))) (String.utf8EncodeChar c ++ s)

/-- One or more decimal digits. -/
def Digits (d : Str) : Prop := d ≠ [] ∧ ∀ c ∈ d, ch '0' ≤ c ∧ c ≤ ch '9'

/-- The number that decimal digits write. -/
def decimal (d : Str) : Nat := d.foldl (fun a c => a * 10 + (c.toNat - 48)) 0

/-- Sign, whole part, fraction and exponent of a number token. -/
structure Token (sign whole frac exp : Str) : Prop where
  sign : sign = [] ∨ sign = lit "-"
  whole : Digits whole ∧ (whole.head? = some (ch '0') → whole = lit "0")
  frac : frac = [] ∨ ∃ d, Digits d ∧ frac = ch '.' :: d
  exp : exp = [] ∨ ∃ e g d, (e = ch 'e' ∨ e = ch 'E') ∧ (g = [] ∨ g = lit "+" ∨ g = lit "-") ∧ Digits d ∧ exp = e :: (g ++ d)

/-- The integer that sign and whole part write, when that is an integer of 64 bits and not `-0`. -/
def whole64 (sign whole : Str) : Option Int :=
  if sign = [] then if decimal whole < 2 ^ 64 then some (decimal whole) else none
  else if decimal whole = 0 then none
  else if decimal whole ≤ 2 ^ 63 then some (-decimal whole) else none

/-- `Num F t v`: the number token `t` denotes `v`. Integers of 64 bits are kept, all else is floating point. -/
def Num (F : Str → Option Str) (t : Str) (v : Value) : Prop :=
  ∃ sign whole frac exp, t = sign ++ whole ++ frac ++ exp ∧ Token sign whole frac exp ∧
    match (if frac = [] ∧ exp = [] then whole64 sign whole else none) with
    | some i => v = .int i
    | none => ∃ x, F t = some x ∧ v = .float x

/-- What a sequence of entries denotes: each key once, at the place of its first entry, with the value of its last. -/
def merged (es : List (Str × Value)) : List (Str × Value) :=
  (es.map Prod.fst).eraseDups.filterMap fun k => (es.reverse.lookup k).map (k, ·)

mutual
/-- `Val F n t v`: the text `t` denotes the document `v`, with at most `n` arrays and objects inside one another. -/
inductive Val (F : Str → Option Str) : Nat → Str → Value → Prop
  | null {n} : Val F n (lit "null") .null
  | yes {n} : Val F n (lit "true") (.bool true)
  | no {n} : Val F n (lit "false") (.bool false)
  | str {n t s} : Body t s → Val F n (ch '"' :: (t ++ [ch '"'])) (.str s)
  | num {n t v} : Num F t v → Val F n t v
  | arr0 {n w} : Blank w → Val F (n + 1) (ch '[' :: (w ++ [ch ']'])) (.arr [])
  | arr {n t a} : Items F n t a → Val F (n + 1) (ch '[' :: (t ++ [ch ']'])) (.arr a)
  | obj0 {n w} : Blank w → Val F (n + 1) (ch '{' :: (w ++ [ch '}'])) (.obj [])
  | obj {n t es} : Entries F n t es → Val F (n + 1) (ch '{' :: (t ++ [ch '}'])) (.obj (merged es))
/-- One or more elements between commas, blanks around each. -/
inductive Items (F : Str → Option Str) : Nat → Str → List Value → Prop
  | one {n w t v w'} : Blank w → Val F n t v → Blank w' → Items F n (w ++ t ++ w') [v]
  | more {n w t v w' r a} : Blank w → Val F n t v → Blank w' → Items F n r a → Items F n (w ++ t ++ w' ++ ch ',' :: r) (v :: a)
/-- One or more entries between commas, blanks around each key and value. -/
inductive Entries (F : Str → Option Str) : Nat → Str → List (Str × Value) → Prop
  | one {n w k key w1 w2 t v w3} : Blank w → Body k key → Blank w1 → Blank w2 → Val F n t v → Blank w3 →
      Entries F n (w ++ ch '"' :: (k ++ ch '"' :: (w1 ++ ch ':' :: (w2 ++ t ++ w3)))) [(key, v)]
  | more {n w k key w1 w2 t v w3 r es} : Blank w → Body k key → Blank w1 → Blank w2 → Val F n t v → Blank w3 → Entries F n r es →
      Entries F n (w ++ ch '"' :: (k ++ ch '"' :: (w1 ++ ch ':' :: (w2 ++ t ++ w3 ++ ch ',' :: r)))) ((key, v) :: es)
end

/-- A document: one value, blanks around it, and nothing else. At most 127 arrays and objects inside one another. -/
def Doc (F : Str → Option Str) (s : Str) (v : Value) : Prop :=
  ∃ w t w', s = w ++ t ++ w' ∧ Blank w ∧ Val F 127 t v ∧ Blank w'

/-- `Inside x v`: the document `x` is `v` or an element or entry somewhere inside it. -/
inductive Inside : Value → Value → Prop
  | self (v) : Inside v v
  | elem {x v a} : v ∈ a → Inside x v → Inside x (.arr a)
  | entry {x v k o} : (k, v) ∈ o → Inside x v → Inside x (.obj o)

/-- The numbers the library's own number type cannot take: integers of 2⁶³ and more, and floats whose text has no point. -/
def Awkward (x : Value) : Prop := (∃ i, x = .int i ∧ 2 ^ 63 ≤ i) ∨ ∃ t, x = .float t ∧ ch '.' ∉ t

end JsonText
end Spec
end Cesride
