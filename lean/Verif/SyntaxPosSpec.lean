import Verif.SyntaxPos
import Verif.SyntaxDoc

/-!
# What the errors of layout definitions say

For each error, what its message says, about the fragment of the document at its position.
-/

namespace Verif

namespace Pos

/-- The fragment at a position. -/
def fragmentAt (root : Json) (p : Nat) : Option Fragment := (fragments root)[p]?

/-- The positions of the keys of an object whose first entry is at `p`. -/
def keyPositions : Nat → JsonObject → List Nat
  | _, [] => []
  | p, (_, v) :: o => (p + 1) :: keyPositions (p + (fragments v).length + 2) o

/-- The `i`-th key of the object at position `q` is `key`, and its position is `p`. -/
structure KeyAt (root : Json) (q i : Nat) (key : String) (p : Nat) : Prop where
  object : ∃ o, fragmentAt root q = some (.value (.object o)) ∧ (o.map Prod.fst)[i]? = some key ∧
    (keyPositions (q + 1) o)[i]? = some p
  key : fragmentAt root p = some (.key key)

/-- The kinds of layouts, with the members that not all layouts have. -/
def kindMembers : List (String × List String) :=
  [("id", ["pattern", "resource"]), ("unit", ["const"]), ("boolean", ["resource", "datatype"]),
   ("number", ["resource", "datatype"]), ("bytes", ["resource", "datatype"]), ("string", ["pattern", "resource", "datatype"]),
   ("record", ["fields"]), ("sum", ["variants"]), ("list", ["node", "head", "tail"]), ("set", ["item"]), ("tuple", ["items"]),
   ("union", []), ("intersection", [])]

/-- The members an object may have, depending on what it stands for. -/
inductive MembersOf (o : JsonObject) : List String → Prop
  | layout {ty : String} {ks : List String} (ht : ("type", Json.string ty) ∈ o) (hk : (ty, ks) ∈ kindMembers) :
    MembersOf o (ks ++ headerMembers)
  | typedLiteral (h : "type" ∈ o.map Prod.fst) : MembersOf o ["type", "value"]
  | taggedLiteral (h : "type" ∉ o.map Prod.fst) : MembersOf o ["language", "value"]
  | format : MembersOf o ["layout", "input", "graph"]
  | field : MembersOf o ["intro", "value", "dataset", "property", "required"]
  | variant : MembersOf o ["intro", "value", "dataset"]
  | item : MembersOf o ["intro", "value", "dataset", "property"]
  | node : MembersOf o ["head", "rest", "intro", "value", "dataset"]

/-- What an error says is true of the document. -/
def Error.IsTrue (lib : ParseLib) (root : Json) : Error → Prop
  | .unexpected p expected found =>
    ∃ j, fragmentAt root p = some (.value j) ∧ kind j = found ∧ found ∉ expected
  | .missingRequiredEntry p key =>
    ∃ o, fragmentAt root p = some (.value (.object o)) ∧ key ∉ o.map Prod.fst
  | .duplicateEntry p key p' =>
    ∃ q i i', i < i' ∧ KeyAt root q i key p ∧ KeyAt root q i' key p'
  | .unexpectedEntry p key =>
    ∃ q i o ks, KeyAt root q i key p ∧ fragmentAt root q = some (.value (.object o)) ∧ MembersOf o ks ∧ key ∉ ks
  | .missingType p => ∃ o, fragmentAt root p = some (.value (.object o)) ∧ "type" ∉ o.map Prod.fst
  | .invalidType p expected found => fragmentAt root p = some (.value (.string found)) ∧ found ∉ expected
  | .invalidRegex p =>
    ∃ s, fragmentAt root p = some (.value (.string s)) ∧ ∃ e, RegExp.parse (s.toList.map RegExp.charNumber) = .err e
  | .invalidPattern p s =>
    fragmentAt root p = some (.value (.string s)) ∧ lib.isBlankId s = false ∧ lib.isIriRef s = false
  | .invalidLangTag p s =>
    ∃ o, fragmentAt root p = some (.value (.object o)) ∧ ("language", Json.string s) ∈ o ∧ lib.isLangTag s = false
  | .invalidCompactIri p s =>
    (fragmentAt root p = some (.value (.string s)) ∨ fragmentAt root p = some (.key s)) ∧ lib.isIriRef s = false
  | .missingQuadPattern p => ∃ l, fragmentAt root p = some (.value (.array l)) ∧ l.length < 3
  | .tooManyQuadPatterns p => ∃ l, fragmentAt root p = some (.value (.array l)) ∧ 4 < l.length
  | .expectedInteger p n => fragmentAt root p = some (.value (.number n)) ∧ '.' ∈ n
  | .integerOverflow p n => fragmentAt root p = some (.value (.number n)) ∧ ¬ ∃ z, I64Doc n z

end Pos

end Verif
