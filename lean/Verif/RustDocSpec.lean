import Verif.Rust
import Verif.SyntaxParse

/-!
# Specification of C74

Declarations of layouts, written in two ways: as a Rust type with attributes, and as a JSON document. Texts (IRIs, patterns, names of
variables) are the same strings in both, valid or not. A setting that is left out is left out in both.
-/

namespace Verif.Rust

/-- A quad of patterns, with an optional graph. -/
structure QuadDecl where
  s : String
  p : String
  o : String
  g : Option String := none

/-- The settings that every type has. -/
structure HeaderDecl where
  base : Option String := none
  prefixes : Option (List (String × String)) := none
  input : Option (List String) := none
  intro : Option (List String) := none
  dataset : Option (List QuadDecl) := none

/-- The settings that every field, variant and item has. The graph is `_` or a pattern. -/
structure ValueDecl where
  intro : Option (List String) := none
  dataset : Option (List QuadDecl) := none
  input : Option (List String) := none
  graph : Option (Option String) := none

/-- A field: `#[tldr(…)] name: ty`. -/
structure FieldDecl where
  name : String
  property : Option String := none
  value : ValueDecl := {}
  ty : RType

/-- A variant: `#[tldr(…)] Name(ty)`. -/
structure VariantDecl where
  name : String
  value : ValueDecl := {}
  ty : RType

/-- An item: `#[tldr(…)] ty`. -/
structure ItemDecl where
  property : Option String := none
  value : ValueDecl := {}
  ty : RType

/-- What follows the header. The types of literals are not looked at by the macros: any definition will do. -/
inductive BodyDecl where
  | unit (data : RData)
  | id (resource : Option String) (data : RData)
  | boolean (resource datatype : Option String) (data : RData)
  | number (resource datatype : Option String) (data : RData)
  | string (resource datatype : Option String) (data : RData)
  | bytes (resource datatype : Option String) (data : RData)
  | record (fields : List FieldDecl)
  | sum (variants : List VariantDecl)
  | tuple (items : List ItemDecl)
  | set (item : ItemDecl)
  | list (head tail nodeHead nodeRest : Option String) (value : ValueDecl) (ty : RType)

/-- A declaration. `written`: the kind of layout is written in the attribute; for records, sums and tuples it may be left to the
definition of the type. -/
structure Decl where
  name : String
  written : Bool := true
  header : HeaderDecl := {}
  body : BodyDecl

/-- The name of the kind of layout. -/
def BodyDecl.kind : BodyDecl → String
  | .unit _ => "unit"
  | .id _ _ => "id"
  | .boolean _ _ _ => "boolean"
  | .number _ _ _ => "number"
  | .string _ _ _ => "string"
  | .bytes _ _ _ => "bytes"
  | .record _ => "record"
  | .sum _ => "sum"
  | .tuple _ => "tuple"
  | .set _ => "set"
  | .list _ _ _ _ _ _ => "list"

/-! ## As a Rust type -/

/-- Separated by commas. -/
def sep : List (List Tok) → List Tok
  | [] => []
  | [x] => x
  | x :: y :: xs => x ++ .punct ',' :: sep (y :: xs)

/-- `name(arguments)`, if there are arguments. -/
def arg (name : String) (o : Option (List Tok)) : List (List Tok) := o.toList.map fun ts => [.ident name, .group ts]

/-- `"a", "b", …` -/
def texts (l : List String) : List Tok := sep (l.map fun s => [.str s])

/-- `(s, p, o)` or `(s, p, o, g)`. -/
def QuadDecl.tok (q : QuadDecl) : Tok := .group (texts ([q.s, q.p, q.o] ++ q.g.toList))

/-- The quads of a dataset. -/
def quadToks (l : List QuadDecl) : List Tok := sep (l.map fun q => [q.tok])

/-- The attributes of the header. -/
def HeaderDecl.args (h : HeaderDecl) : List (List Tok) :=
  arg "base" (h.base.map fun s => [.str s]) ++
  arg "prefix" (h.prefixes.map fun l => sep (l.map fun e => [.str e.1, .punct '=', .str e.2])) ++
  arg "input" (h.input.map texts) ++ arg "intro" (h.intro.map texts) ++ arg "dataset" (h.dataset.map quadToks)

/-- `graph(_)` or `graph(Some("…"))`. -/
def graphToks : Option String → List Tok
  | none => [.ident "_"]
  | some s => [.ident "Some", .group [.str s]]

/-- The attributes of a field, variant or item. -/
def ValueDecl.args (v : ValueDecl) : List (List Tok) :=
  arg "intro" (v.intro.map texts) ++ arg "dataset" (v.dataset.map quadToks) ++ arg "input" (v.input.map texts) ++
  arg "graph" (v.graph.map graphToks)

/-- The property of a field or item: a string alone. -/
def propArgs (p : Option String) : List (List Tok) := p.toList.map fun s => [.str s]

/-- `#[tldr(…)]`. -/
def attr (args : List (List Tok)) : List RAttr := [⟨"tldr", some (sep args)⟩]

/-- The attributes and the content of the type. -/
def BodyDecl.rust : BodyDecl → List (List Tok) × RData
  | .unit data => ([], data)
  | .id r data => (arg "resource" (r.map fun s => [.str s]), data)
  | .boolean r d data => (arg "resource" (r.map fun s => [.str s]) ++ arg "datatype" (d.map fun s => [.str s]), data)
  | .number r d data => (arg "resource" (r.map fun s => [.str s]) ++ arg "datatype" (d.map fun s => [.str s]), data)
  | .string r d data => (arg "resource" (r.map fun s => [.str s]) ++ arg "datatype" (d.map fun s => [.str s]), data)
  | .bytes r d data => (arg "resource" (r.map fun s => [.str s]) ++ arg "datatype" (d.map fun s => [.str s]), data)
  | .record fs => ([], .struct (.named (fs.map fun f => (f.name, attr (propArgs f.property ++ f.value.args), f.ty))))
  | .sum vs => ([], .enum (vs.map fun v => (v.name, attr v.value.args, .unnamed [([], v.ty)])))
  | .tuple is => ([], .struct (.unnamed (is.map fun i => (attr (propArgs i.property ++ i.value.args), i.ty))))
  | .set i => ([], .struct (.unnamed [(attr (propArgs i.property ++ i.value.args), .path [] "Vec" [i.ty])]))
  | .list hd tl nh nr v ty =>
    (arg "head" (hd.map fun s => [.str s]) ++ arg "tail" (tl.map fun s => [.str s]),
      .struct (.unnamed [(attr (arg "head" (nh.map fun s => [.str s]) ++ arg "rest" (nr.map fun s => [.str s]) ++ v.args),
        .path [] "Vec" [ty])]))

/-- The kind may be left to the definition of the type. -/
def BodyDecl.implied : BodyDecl → Bool
  | .record _ => true
  | .sum _ => true
  | .tuple _ => true
  | _ => false

/-- The declaration as a Rust type. -/
def Decl.item (d : Decl) : RItem :=
  ⟨d.name, attr ((if d.written || !d.body.implied then [[.ident d.body.kind]] else []) ++ d.header.args ++ d.body.rust.1), d.body.rust.2⟩

/-- A type without `Option`. -/
def content : RType → RType
  | .path [] "Option" [t] => t
  | t => t

/-- The types of the contents, in order: those of the fields are without `Option`. -/
def BodyDecl.types : BodyDecl → List RType
  | .record fs => fs.map fun f => content f.ty
  | .sum vs => vs.map (·.ty)
  | .tuple is => is.map (·.ty)
  | .set i => [i.ty]
  | .list _ _ _ _ _ ty => [ty]
  | _ => []

/-! ## As a JSON document -/

/-- A member of an object, if present. -/
def member (name : String) (o : Option Json) : JsonObject := o.toList.map fun j => (name, j)

/-- One string, or an array of strings. -/
def textsJson : List String → Json
  | [s] => .string s
  | l => .array (l.map .string)

/-- An array of three or four patterns. -/
def QuadDecl.json (q : QuadDecl) : Json := .array (([q.s, q.p, q.o] ++ q.g.toList).map .string)

/-- An array of quads. -/
def quadsJson (l : List QuadDecl) : Json := .array (l.map QuadDecl.json)

/-- The members of the header. -/
def HeaderDecl.members (h : HeaderDecl) : JsonObject :=
  member "base" (h.base.map .string) ++ member "prefixes" (h.prefixes.map fun l => .object (l.map fun e => (e.1, .string e.2))) ++
  member "input" (h.input.map textsJson) ++ member "intro" (h.intro.map textsJson) ++ member "dataset" (h.dataset.map quadsJson)

/-- A pattern, or `null`. -/
def graphJson : Option String → Json
  | none => .null
  | some s => .string s

/-- The members of a field, variant or item: those of its value are in an object. The layout is that of the `i`-th type. -/
def ValueDecl.members (v : ValueDecl) (i : Nat) : JsonObject :=
  member "intro" (v.intro.map textsJson) ++ member "dataset" (v.dataset.map quadsJson) ++
  [("value", .object ([("layout", .string ("rust:/#Type" ++ toString i))] ++ member "input" (v.input.map textsJson) ++
    member "graph" (v.graph.map graphJson)))]

/-- A field is required unless its type is an `Option`. -/
def isRequired : RType → Bool
  | .path [] "Option" [_] => false
  | _ => true

/-- The fields, from the `i`-th type on. -/
def fieldsJson : Nat → List FieldDecl → JsonObject
  | _, [] => []
  | i, f :: fs =>
    (f.name, .object (member "property" (f.property.map .string) ++ [("required", .boolean (isRequired f.ty))] ++ f.value.members i)) ::
      fieldsJson (i + 1) fs

/-- The variants, from the `i`-th type on. -/
def variantsJson : Nat → List VariantDecl → JsonObject
  | _, [] => []
  | i, v :: vs => (v.name, .object (v.value.members i)) :: variantsJson (i + 1) vs

/-- An item. -/
def ItemDecl.json (d : ItemDecl) (i : Nat) : Json := .object (member "property" (d.property.map .string) ++ d.value.members i)

/-- The items, from the `i`-th type on. -/
def itemsJson : Nat → List ItemDecl → List Json
  | _, [] => []
  | i, d :: ds => d.json i :: itemsJson (i + 1) ds

/-- The members of the body. -/
def BodyDecl.members : BodyDecl → JsonObject
  | .unit _ => []
  | .id r _ => member "resource" (r.map .string)
  | .boolean r d _ => member "resource" (r.map .string) ++ member "datatype" (d.map .string)
  | .number r d _ => member "resource" (r.map .string) ++ member "datatype" (d.map .string)
  | .string r d _ => member "resource" (r.map .string) ++ member "datatype" (d.map .string)
  | .bytes r d _ => member "resource" (r.map .string) ++ member "datatype" (d.map .string)
  | .record fs => [("fields", .object (fieldsJson 0 fs))]
  | .sum vs => [("variants", .object (variantsJson 0 vs))]
  | .tuple is => [("items", .array (itemsJson 0 is))]
  | .set i => [("item", i.json 0)]
  | .list hd tl nh nr v _ =>
    member "head" (hd.map .string) ++ member "tail" (tl.map .string) ++
      [("node", .object (member "head" (nh.map .string) ++ member "rest" (nr.map .string) ++ v.members 0))]

/-- The declaration as a JSON document. -/
def Decl.json (d : Decl) : Json := .object (("type", .string d.body.kind) :: (d.header.members ++ d.body.members))

end Verif.Rust
