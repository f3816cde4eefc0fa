import Verif.Model.Data

/-! # Model of the macro `dat!` (`src/data.rs` 391-581): what a document written down in a program expands to

The macro takes the tokens between its parentheses apart from the front. `none`: the program does not compile (no arm of the macro takes the tokens, or what an
arm makes of them is refused). The compiler's limit on the depth of macro expansions (128, a compile error too) is not modelled. -/

namespace Cesride.Native

/-- A token tree as the macro sees it. An expression of the program (a literal, a variable, a call, whatever `$value:expr` takes that begins with none of the
other tokens) is one token, with the document that `Value::from` makes of it (`src/data.rs` 193-296); a text also serves as a key. -/
inductive Tok where
  | null
  | yes
  | no
  | comma
  | colon
  | bracket (ts : List Tok)
  | brace (ts : List Tok)
  | expr (v : Value)
  | other

mutual
/-- `src/data.rs` 546-580: the core arms `null`, `true`, `false`, `[..]`, `{..}` and expression. -/
def datValue : Tok → Option Value
  | .null => some .null
  | .yes => some (.bool true)
  | .no => some (.bool false)
  | .bracket ts => datItems [] true ts
  | .brace ts => datEntries [] ts
  | .expr v => some v
  | _ => none
/-- `src/data.rs` 394-447, the arms `@array`: `elems` are the elements so far. `ready` is whether they end with a comma, or are none: then the next token is an element
(arms 404-437) or the end (395-397). Otherwise it is a comma (440-442) or the end (400-402), or the program does not compile (445-447). The arm 440-442 also takes a comma when there
are no elements. An expression is taken with the comma after it (430-432) or as the last (435-437), which comes to the same. -/
def datItems (elems : List Value) (ready : Bool) : List Tok → Option Value
  | [] => some (.arr elems)
  | .comma :: rest =>
    if ready then if elems.isEmpty then datItems [] true rest else none
    else datItems elems true rest
  | t :: rest =>
    if ready then do
      let v ← datValue t
      datItems (elems ++ [v]) false rest
    else none
/-- `src/data.rs` 451-544, the arms `@object`: `object` is the map so far. A key (532-534, 542-544), a colon, a value (471-503), an insertion, and a comma (455-458) or the end (452, 466-468).
No other tokens compile (461-463, 506-539). -/
def datEntries (object : List (Str × Value)) : List Tok → Option Value
  | [] => some (.obj object)
  | [.expr (.str k), .colon, t] => do
    let v ← datValue t
    some (.obj (Value.insert object k v))
  | .expr (.str k) :: .colon :: t :: .comma :: rest => do
    let v ← datValue t
    datEntries (Value.insert object k v) rest
  | _ => none
end

/-- `src/data.rs` 546-580: `dat!( .. )`. -/
def dat : List Tok → Option Value
  | [t] => datValue t
  | _ => none

end Cesride.Native
