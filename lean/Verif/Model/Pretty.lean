import Verif.Model.Sadder

/-! # Model of `Sadder::pretty` (`src/core/sadder.rs` 198-212) and of `serde_json::to_string_pretty` -/

namespace Cesride

/-- `serde_json` `PrettyFormatter`: a line break and two spaces for each level. -/
def Json.newline (ind : Nat) : Str := 10 :: List.replicate (2 * ind) 32

mutual
/-- `serde_json::to_string_pretty`: empty containers on one line, each element or entry of the others on a line of its own, a space after the
colon. Scalars print as in the compact text. -/
def Json.pretty (ind : Nat) : Value → Str
  | .arr [] => lit "[]"
  | .arr (v :: a) => ch '[' :: (Json.prettyElems (ind + 1) (v :: a) ++ (Json.newline ind ++ [ch ']']))
  | .obj [] => lit "{}"
  | .obj (e :: o) => ch '{' :: (Json.prettyFields (ind + 1) (e :: o) ++ (Json.newline ind ++ [ch '}']))
  | .null => lit "null"
  | .bool b => if b then lit "true" else lit "false"
  | .int i => intDec i
  | .float t => t
  | .str s => jsonStr s
/-- The elements of an array. -/
def Json.prettyElems (ind : Nat) : List Value → Str
  | [] => []
  | v :: rest => Json.newline ind ++ (Json.pretty ind v ++ (match rest with | [] => [] | _ :: _ => ch ',' :: Json.prettyElems ind rest))
/-- The entries of an object. -/
def Json.prettyFields (ind : Nat) : List (Str × Value) → Str
  | [] => []
  | (k, v) :: rest => Json.newline ind ++ (jsonStr k ++ ch ':' :: 32 :: (Json.pretty ind v ++
      (match rest with | [] => [] | _ :: _ => ch ',' :: Json.prettyFields ind rest)))
end

/-- `src/core/sadder.rs` 198-212 `pretty`: the compact text is parsed by `serde_json` (without the conversion to `Value`), printed with line
breaks and cut to `size` bytes (1024 by default); cutting inside a character panics. -/
def Sadder.pretty (F : Str → Option Str) (s : Sadder) (size : Option Nat) : Res Str :=
  match Json.parseDoc F s.ked.toJson with
  | none => .err .json
  | some v =>
    let t := Json.pretty 0 v
    let size := size.getD 1024
    if size < t.length then sliceStr t 0 size else .ok t

end Cesride
