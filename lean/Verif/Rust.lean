import Verif.Syntax
import Verif.SyntaxParse
import Verif.Registry
import Verif.Prelude

/-!
# Rust code: the generator and the derive macros

Models the Rust code generator (`generators/rust/generator/src/lib.rs`), which writes a type definition for each layout, and the
front end of the derive macros (`generators/rust/treeldr-rs-macros/src/parse.rs`), which reads a layout back from the
definition of a type.

Simplifications:
* only the part of Rust that these read or write is modelled: tokens inside `tldr` attributes, types as paths, structures and
  enumerations; the delimiters of groups, spans, visibility, generics and the `derive` attribute are left out;
* what `syn` accepts as an identifier, the conversion of the last segment of an IRI into an identifier, and the order of
  identifiers, are parameters;
* variable indices (`u32`) are natural numbers.
-/

set_option linter.unusedSectionVars false

namespace Verif.Rust

variable {R : Type} [DecidableEq R]

/-! ## Rust syntax -/

/-- `proc_macro2::TokenTree`. A string literal is given by its value, any other literal by its text. -/
inductive Tok where
  | ident (s : String)
  | str (s : String)
  | lit (text : String)
  | punct (c : Char)
  | group (ts : List Tok)
  deriving Repr

/-- `syn::Type`: a path, with the arguments of its last segment, or something else. Leading colons and arguments that are not types
are left out. -/
inductive RType where
  | path (init : List String) (last : String) (args : List RType)
  | other (text : String)
  deriving Repr

/-- `syn::Attribute`, by its path and, for `path(tokens)`, its tokens. -/
structure RAttr where
  path : String
  tokens : Option (List Tok)

/-- `syn::Fields`. -/
inductive RFields where
  | named (fs : List (String × List RAttr × RType))
  | unnamed (fs : List (List RAttr × RType))
  | unit

/-- `syn::Data`. -/
inductive RData where
  | struct (fs : RFields)
  | enum (vs : List (String × List RAttr × RFields))
  | union

/-- `syn::DeriveInput`. -/
structure RItem where
  ident : String
  attrs : List RAttr
  data : RData

/-! ## The generator -/

/-- `Error`. `generators/rust/generator/src/lib.rs` L24-37. -/
inductive GenError (R : Type) where
  | missingTypeIdentifier (r : R)
  | invalidFieldIdent (v : Value)
  | invalidVariantIdent (n : String)
  | noIriRepresentation

/-- The options of the generator (`Options`, L49-72), the interpretation (`iris_of`), and the functions of `syn`: `parseIdent` is
`syn::parse_str::<Ident>`, `identFromIri` is `ident_from_iri` (`utils.rs` L4-13), `identLt` is the order of identifiers. The
external modules are in the order of their prefixes. -/
structure GenCtx (R : Type) where
  irisOf : R → List String
  idents : R → Option String := fun _ => none
  externModules : List (String × List String) := []
  parseIdent : String → Option String
  identFromIri : String → Option String
  identLt : String → String → Bool

/-- `default_layout_ident`. `generators/rust/generator/src/lib.rs` L154-174. -/
def defaultLayoutIdent (g : GenCtx R) (r : R) : Option String :=
  (g.irisOf r).foldl (fun selected i =>
    match g.identFromIri i with
    | some id => if selected.any (fun s => g.identLt s id) then selected else some id
    | none => selected) none

/-- `layout_ident`. `generators/rust/generator/src/lib.rs` L74-89. -/
def layoutIdent (g : GenCtx R) (r : R) : Out (GenError R) String :=
  match g.idents r with
  | some id => .ok id
  | none =>
    match defaultLayoutIdent g r with
    | some id => .ok id
    | none => .err (.missingTypeIdentifier r)

/-- The type of a preset layout, by the name of the preset. `generators/rust/generator/src/lib.rs` L107-120,
`layouts/src/preset.rs`. -/
def presetTypes : List (String × RType) :=
  [("id", .path ["treeldr", "rdf_types"] "Id" []), ("unit", .other "()"), ("boolean", .path [] "bool" []),
   ("u8", .path [] "u8" []), ("u16", .path [] "u16" []), ("u32", .path [] "u32" []), ("u64", .path [] "u64" []),
   ("i8", .path [] "i8" []), ("i16", .path [] "i16" []), ("i32", .path [] "i32" []), ("i64", .path [] "i64" []),
   ("string", .path [] "String" [])]

/-- `PresetLayout::from_iri` and the type. -/
def presetType (iri : String) : Option RType :=
  (presetTypes.find? fun p => preludeIri p.1 = iri).map (·.2)

/-- `str::starts_with`. -/
def startsWith (s pre : String) : Bool := pre.toList.isPrefixOf s.toList

/-- The loop over the IRIs of a layout: the type of a preset, or the module to use. `generators/rust/generator/src/lib.rs`
L104-130. -/
def layoutRefLoop (g : GenCtx R) : List String → Option (List String) → RType ⊕ Option (List String)
  | [], path => .inr path
  | i :: is, path =>
    match presetType i with
    | some t => .inl t
    | none => layoutRefLoop g is (g.externModules.foldl (fun acc m => if startsWith i m.1 then some m.2 else acc) path)

/-- `layout_ref`. `generators/rust/generator/src/lib.rs` L91-145. -/
def layoutRef (g : GenCtx R) (r : R) : Out (GenError R) RType :=
  match layoutRefLoop g (g.irisOf r) none with
  | .inl t => .ok t
  | .inr path => (layoutIdent g r).bind fun id => .ok (.path (path.getD []) id [])

/-- `pattern_to_id`, as a string. `generators/rust/generator/src/lib.rs` L176-193. -/
def patternToId (g : GenCtx R) : Pattern R → Out (GenError R) String
  | .var i => .ok ("_:" ++ toString i)
  | .res r =>
    match g.irisOf r with
    | i :: _ => .ok i
    | [] => .err .noIriRepresentation

/-- `quote!(name(args))`. -/
def call (name : String) (args : List Tok) : List Tok := [.ident name, .group args]

/-- `quote!(#(#xs),*)`: separated by commas. -/
def commas : List (List Tok) → List Tok
  | [] => []
  | [x] => x
  | x :: y :: xs => x ++ .punct ',' :: commas (y :: xs)

/-- The names of `count` variables from `offset`. -/
def varNames (offset count : Nat) : List String := (List.range' offset count).map toString

/-- A list of string literals. -/
def strings (l : List String) : List Tok := commas (l.map fun s => [.str s])

/-- `generate_intro_attribute`. `generators/rust/generator/src/lib.rs` L195-199. -/
def introAttr (count offset : Nat) : List Tok := call "intro" (strings (varNames offset count))

/-- `generate_input_attribute`. `generators/rust/generator/src/lib.rs` L201-205. -/
def inputAttr (count : Nat) : List Tok := call "input" (strings (varNames 0 count))

/-- A quad of `generate_dataset_attribute`. `generators/rust/generator/src/lib.rs` L217-226. -/
def quadTok (g : GenCtx R) (q : QuadPat R) : Out (GenError R) Tok :=
  (patternToId g q.s).bind fun s =>
  (patternToId g q.p).bind fun p =>
  (patternToId g q.o).bind fun o =>
  match q.g with
  | none => .ok (.group [.str s, .punct ',', .str p, .punct ',', .str o, .punct ','])
  | some gr =>
    (patternToId g gr).bind fun gr =>
    .ok (.group [.str s, .punct ',', .str p, .punct ',', .str o, .punct ',', .str gr])

/-- `generate_dataset_attribute`. `generators/rust/generator/src/lib.rs` L207-230. -/
def datasetAttr (g : GenCtx R) (ds : List (QuadPat R)) : Out (GenError R) (List Tok) :=
  (Out.mapM' (quadTok g) ds).bind fun quads => .ok (call "dataset" (commas (quads.map fun q => [q])))

/-- `generate_value_input_attribute`. `generators/rust/generator/src/lib.rs` L232-246. -/
def valueInputAttr (g : GenCtx R) (input : List (Pattern R)) : Out (GenError R) (List Tok) :=
  (Out.mapM' (patternToId g) input).bind fun ids => .ok (call "input" (strings ids))

/-- `generate_value_graph_attribute`. `generators/rust/generator/src/lib.rs` L248-270. -/
def valueGraphAttr (g : GenCtx R) : Option (Option (Pattern R)) → Out (GenError R) (List Tok)
  | some (some p) => (patternToId g p).bind fun id => .ok (call "graph" (call "Some" [.str id]))
  | some none => .ok (call "graph" [.ident "None"])
  | none => .ok (call "graph" [.ident "_"])

/-- `#[tldr(...)]` with the given arguments. -/
def tldr (args : List (List Tok)) : RAttr := ⟨"tldr", some (commas args)⟩

/-- The attribute of a field, variant or item: `#[tldr(#intro, #dataset, #input, #graph)]`, after the given arguments, and the
type of its value. `generators/rust/generator/src/lib.rs` L372-381, L406-414, L433-446, L456-470, L483-493. -/
def componentAttr (g : GenCtx R) (before : List (List Tok)) (offset intro : Nat) (ds : List (QuadPat R)) (v : ValueFormat R) :
    Out (GenError R) (RAttr × RType) :=
  (datasetAttr g ds).bind fun ds =>
  (valueInputAttr g v.input).bind fun input =>
  (valueGraphAttr g v.graph).bind fun graph =>
  (layoutRef g v.layout).bind fun t =>
  .ok (tldr (before ++ [introAttr intro offset, ds, input, graph]), t)

/-- A field of a record. `generators/rust/generator/src/lib.rs` L367-384. -/
def fieldOf (g : GenCtx R) (offset : Nat) (e : Value × Field R) : Out (GenError R) (String × List RAttr × RType) :=
  match e.1 with
  | .text name =>
    match g.parseIdent name with
    | none => .err (.invalidFieldIdent e.1)
    | some id => (componentAttr g [] offset e.2.intro e.2.dataset e.2.value).bind fun a => .ok (id, [a.1], a.2)
  | _ => .err (.invalidFieldIdent e.1)

/-- A variant of a sum. `generators/rust/generator/src/lib.rs` L402-416. -/
def variantOf (g : GenCtx R) (offset : Nat) (v : Variant R) : Out (GenError R) (String × List RAttr × RFields) :=
  match g.parseIdent v.name with
  | none => .err (.invalidVariantIdent v.name)
  | some id => (componentAttr g [] offset v.intro v.dataset v.value).bind fun a => .ok (id, [a.1], .unnamed [([], a.2)])

/-- An item of a tuple. `generators/rust/generator/src/lib.rs` L482-494. -/
def itemOf (g : GenCtx R) (offset : Nat) (i : ItemLayout R) : Out (GenError R) (List RAttr × RType) :=
  (componentAttr g [] offset i.intro i.dataset i.value).bind fun a => .ok ([a.1], a.2)

/-- What is generated for a layout: a type alias, or a type with derived implementations. -/
inductive Generated where
  | alias (ident : String) (ty : RType)
  | item (i : RItem)

/-- A type whose only attribute describes a literal layout. `generators/rust/generator/src/lib.rs` L292-358. -/
def literalItem (g : GenCtx R) (ident : String) (before : List (List Tok)) (input intro : Nat) (ds : List (QuadPat R))
    (fs : RFields) : Out (GenError R) Generated :=
  (datasetAttr g ds).bind fun ds =>
  .ok (.item ⟨ident, [tldr (before ++ [inputAttr input, introAttr intro input, ds])], .struct fs⟩)

/-- `generate`. `generators/rust/generator/src/lib.rs` L272-508. -/
def generate (g : GenCtx R) (layouts : Registry R) (r : R) : Out (GenError R) Generated :=
  match layouts r with
  | none => .panic
  | some layout =>
    (layoutIdent g r).bind fun ident =>
    match layout with
    | .always => .ok (.alias ident (.path ["treeldr"] "Always" []))
    | .never => .ok (.alias ident (.path ["treeldr"] "Never" []))
    | .unit l => literalItem g ident [] l.input l.intro l.dataset .unit
    | .boolean l => literalItem g ident [] l.input l.intro l.dataset (.unnamed [([], .path [] "bool" [])])
    | .number l => literalItem g ident [] l.input l.intro l.dataset (.unnamed [([], .path [] "Number" [])])
    | .textString l => literalItem g ident [] l.input l.intro l.dataset (.unnamed [([], .path [] "String" [])])
    | .byteString l =>
      literalItem g ident [] l.input l.intro l.dataset (.unnamed [([], .path [] "Vec" [.path [] "u8" []])])
    | .id l => literalItem g ident [[.ident "id"]] l.input l.intro l.dataset (.unnamed [([], .path [] "Id" [])])
    | .product l =>
      (datasetAttr g l.dataset).bind fun ds =>
      (Out.mapM' (fieldOf g (l.input + l.intro)) l.fields).bind fun fields =>
      .ok (.item ⟨ident, [tldr [inputAttr l.input, introAttr l.intro l.input, ds]], .struct (.named fields)⟩)
    | .sum l =>
      (datasetAttr g l.dataset).bind fun ds =>
      (Out.mapM' (variantOf g (l.input + l.intro)) l.variants).bind fun variants =>
      .ok (.item ⟨ident, [tldr [inputAttr l.input, introAttr l.intro l.input, ds]], .enum variants⟩)
    | .unordered l =>
      (datasetAttr g l.dataset).bind fun ds =>
      (componentAttr g [] (l.input + l.intro) l.item.intro l.item.dataset l.item.value).bind fun a =>
      .ok (.item ⟨ident, [tldr [[.ident "set"], introAttr l.intro l.input, ds, inputAttr l.input]],
        .struct (.unnamed [([a.1], .path ["std", "collection"] "BTreeSet" [a.2])])⟩)
    | .ordered l =>
      (datasetAttr g l.dataset).bind fun ds =>
      (patternToId g l.head).bind fun head =>
      (patternToId g l.tail).bind fun tail =>
      (componentAttr g [call "head" [.str (toString (l.input + l.intro))], call "rest" [.str (toString (l.input + l.intro + 1))]]
        (l.input + l.intro + 2) l.node.intro l.node.dataset l.node.value).bind fun a =>
      .ok (.item ⟨ident, [tldr [[.ident "list"], introAttr l.intro l.input, call "head" [.str head], call "tail" [.str tail], ds,
        inputAttr l.input]], .struct (.unnamed [([a.1], .path [] "Vec" [a.2])])⟩)
    | .sized l =>
      (datasetAttr g l.dataset).bind fun ds =>
      (Out.mapM' (itemOf g (l.input + l.intro)) l.items).bind fun items =>
      .ok (.item ⟨ident, [tldr [[.ident "tuple"], introAttr l.intro l.input, ds, inputAttr l.input]], .struct (.unnamed items)⟩)

/-! ## The derive macros: attributes -/

/-- `Error`. `generators/rust/treeldr-rs-macros/src/parse.rs` L34-77. -/
inductive MacroError where
  | invalidMeta
  | unexpectedToken
  | unexpectedLiteral
  | missingToken
  | invalidCompactIri (s : String)
  | invalidPattern (s : String)
  | conflictingValue
  | unionType
  | missingDatatype
  | expectedStruct
  | expectedNamedFields
  | expectedUnnamedFields
  | expectedOneField
  | expectedVec
  deriving DecidableEq, Repr

/-- `Kind`. `generators/rust/treeldr-rs-macros/src/parse.rs` L1034-1047. -/
inductive Kind where
  | id | unit | boolean | number | string | bytes | record | sum | set | list | tuple
  deriving DecidableEq, Repr

/-- `Kind::from_ident`. `generators/rust/treeldr-rs-macros/src/parse.rs` L1050-1076. -/
def Kind.ofIdent (s : String) : Option Kind :=
  if s = "id" then some .id
  else if s = "unit" then some .unit
  else if s = "boolean" then some .boolean
  else if s = "number" then some .number
  else if s = "string" then some .string
  else if s = "bytes" then some .bytes
  else if s = "record" then some .record
  else if s = "sum" then some .sum
  else if s = "set" then some .set
  else if s = "list" then some .list
  else if s = "tuple" then some .tuple
  else none

/-- `Kind::from_data`. `generators/rust/treeldr-rs-macros/src/parse.rs` L1078-1088. -/
def Kind.ofData : RData → Out MacroError Kind
  | .struct (.named _) => .ok .record
  | .struct (.unnamed _) => .ok .tuple
  | .struct .unit => .ok .unit
  | .enum _ => .ok .sum
  | .union => .err .unionType

/-- `replace`. `generators/rust/treeldr-rs-macros/src/parse.rs` L755-763. -/
def replace {α : Type} [DecidableEq α] (old : Option α) (new : α) : Out MacroError (Option α) :=
  match old with
  | some o => if o = new then .ok (some new) else .err .conflictingValue
  | none => .ok (some new)

/-- `expect_argument`. `generators/rust/treeldr-rs-macros/src/parse.rs` L765-775. -/
def expectArgument {α : Type} (f : List Tok → Out MacroError α) : List Tok → Out MacroError (α × List Tok)
  | .group g :: ts => (f g).bind fun a => .ok (a, ts)
  | _ :: _ => .err .unexpectedToken
  | [] => .err .missingToken

/-- `string_token`. `generators/rust/treeldr-rs-macros/src/parse.rs` L799-807. -/
def stringToken : Tok → Out MacroError String
  | .str s => .ok s
  | .lit _ => .err .unexpectedLiteral
  | _ => .err .unexpectedToken

/-- `parse_string`. `generators/rust/treeldr-rs-macros/src/parse.rs` L777-789. -/
def parseString : List Tok → Out MacroError String
  | [] => .err .missingToken
  | [t] => stringToken t
  | _ :: _ :: _ => .err .unexpectedToken

/-- `parse_compact_iri`. `generators/rust/treeldr-rs-macros/src/parse.rs` L791-797. -/
def parseCompactIri (lib : IriLib) (ts : List Tok) : Out MacroError CompactIri :=
  (parseString ts).bind fun s => if lib.isIriRef s then .ok s else .err (.invalidCompactIri s)

/-- `is_pn_char_base`. `layouts/src/abs/syntax/pattern/variable.rs` L92-94. -/
def isPnCharBase (n : Nat) : Bool :=
  [(0x41, 0x5a), (0x61, 0x7a), (0xc0, 0xd6), (0xd8, 0xf6), (0xf8, 0x2ff), (0x370, 0x37d), (0x37f, 0x1fff), (0x200c, 0x200d),
   (0x2070, 0x218f), (0x2c00, 0x2fef), (0x3001, 0xd7ff), (0xf900, 0xfdcf), (0xfdf0, 0xfffd), (0x10000, 0xeffff)].any
    fun r => r.1 ≤ n && n ≤ r.2

/-- `is_pn_char_u`. `layouts/src/abs/syntax/pattern/variable.rs` L96-98. -/
def isPnCharU (c : Char) : Bool := isPnCharBase c.toNat || c = '_' || c = ':'

/-- `is_pn_char`. `layouts/src/abs/syntax/pattern/variable.rs` L100-103. -/
def isPnChar (c : Char) : Bool :=
  isPnCharU c || c = '-' || c.isDigit || c.toNat = 0xb7 || (0x300 ≤ c.toNat && c.toNat ≤ 0x36f) ||
    (0x203f ≤ c.toNat && c.toNat ≤ 0x2040)

/-- `VariableNameBuf::new(s).is_ok()`: `check_variable_name`. `layouts/src/abs/syntax/pattern/variable.rs` L77-90. -/
def isVarName (s : String) : Bool :=
  match s.toList with
  | c :: cs => (c.isDigit || isPnCharU c) && cs.all isPnChar
  | [] => false

/-- `parse_pattern`. `generators/rust/treeldr-rs-macros/src/parse.rs` L943-953. -/
def parsePattern (lib : IriLib) (s : String) : Out MacroError SPattern :=
  if lib.isBlankId s then
    (if isVarName (blankSuffix s) then .ok (.var (blankSuffix s)) else .panic)
  else if lib.isIriRef s then .ok (.iri s)
  else .err (.invalidPattern s)

/-- `pattern_token`. `generators/rust/treeldr-rs-macros/src/parse.rs` L955-958. -/
def patternToken (lib : IriLib) (t : Tok) : Out MacroError SPattern := (stringToken t).bind (parsePattern lib)

/-- `quad_token`. `generators/rust/treeldr-rs-macros/src/parse.rs` L809-854. -/
def quadToken (lib : IriLib) : Tok → Out MacroError (Quad SPattern)
  | .group [] => .err .missingToken
  | .group (t :: ts) =>
    (patternToken lib t).bind fun s =>
    match ts with
    | [] => .err .missingToken
    | [.punct ','] => .err .missingToken
    | .punct ',' :: t :: ts =>
      (patternToken lib t).bind fun p =>
      match ts with
      | [] => .err .missingToken
      | [.punct ','] => .err .missingToken
      | .punct ',' :: t :: ts =>
        (patternToken lib t).bind fun o =>
        match ts with
        | [] => .ok ⟨s, p, o, none⟩
        | [.punct ','] => .ok ⟨s, p, o, none⟩
        | .punct ',' :: t :: _ => (patternToken lib t).bind fun g => .ok ⟨s, p, o, some g⟩
        | _ => .err .unexpectedToken
      | _ => .err .unexpectedToken
    | _ => .err .unexpectedToken
  | _ => .err .unexpectedToken

/-- `parse_list`. `generators/rust/treeldr-rs-macros/src/parse.rs` L872-886. -/
def parseList {α : Type} (f : Tok → Out MacroError α) : List Tok → Out MacroError (List α)
  | [] => .ok []
  | [t] => (f t).bind fun a => .ok [a]
  | t :: .punct ',' :: ts => (f t).bind fun a => (parseList f ts).bind fun l => .ok (a :: l)
  | t :: _ :: _ => (f t).bind fun _ => .err .unexpectedToken

/-- `parse_binding_list`. `generators/rust/treeldr-rs-macros/src/parse.rs` L1006-1032. -/
def parseBindings (lib : IriLib) : List Tok → Out MacroError (List (String × CompactIri))
  | [] => .ok []
  | [t] => (stringToken t).bind fun _ => .err .missingToken
  | [t, .punct '='] => (stringToken t).bind fun _ => .err .missingToken
  | [t, .punct '=', v] =>
    (stringToken t).bind fun p => (stringToken v).bind fun s =>
    if lib.isIriRef s then .ok [(p, s)] else .err (.invalidCompactIri s)
  | t :: .punct '=' :: v :: .punct ',' :: ts =>
    (stringToken t).bind fun p => (stringToken v).bind fun s =>
    if lib.isIriRef s then (parseBindings lib ts).bind fun l => .ok ((p, s) :: l) else .err (.invalidCompactIri s)
  | t :: .punct '=' :: v :: _ :: _ =>
    (stringToken t).bind fun _ => (stringToken v).bind fun s =>
    if lib.isIriRef s then .err .unexpectedToken else .err (.invalidCompactIri s)
  | t :: _ :: _ => (stringToken t).bind fun _ => .err .unexpectedToken

/-- `parse_graph_value`, with the conversion of `GraphValue`. `generators/rust/treeldr-rs-macros/src/parse.rs` L737-753, L960-997. -/
def parseGraph (lib : IriLib) : List Tok → Out MacroError (Option (Option SPattern))
  | [] => .err .missingToken
  | .ident id :: ts =>
    if id = "_" then (if ts.isEmpty then .ok none else .err .unexpectedToken)
    else if id = "None" then (if ts.isEmpty then .ok (some none) else .err .unexpectedToken)
    else if id = "Some" then
      match ts with
      | [] => .err .missingToken
      | .group [] :: _ => .err .missingToken
      | .group (t :: _) :: _ => (patternToken lib t).bind fun p => .ok (some (some p))
      | _ => .err .unexpectedToken
    else .err .unexpectedToken
  | _ => .err .unexpectedToken

/-- `TypeAttributes`. `generators/rust/treeldr-rs-macros/src/parse.rs` L429-443. There are never extra properties. -/
structure TypeAttrs where
  base : Option CompactIri := none
  prefixes : List (String × CompactIri) := []
  id : Option CompactIri := none
  kind : Option Kind := none
  input : Option (List String) := none
  intro : Option (List String) := none
  head : Option SPattern := none
  tail : Option SPattern := none
  dataset : Option (List (Quad SPattern)) := none
  resource : Option SPattern := none
  datatype : Option CompactIri := none

/-- `ComponentAttributes`. `generators/rust/treeldr-rs-macros/src/parse.rs` L555-564. -/
structure CompAttrs where
  head : Option String := none
  rest : Option String := none
  intro : Option (List String) := none
  property : Option SPattern := none
  dataset : Option (List (Quad SPattern)) := none
  input : Option (List SPattern) := none
  graph : Option (Option (Option SPattern)) := none

/-- `expect_pattern_argument`. `generators/rust/treeldr-rs-macros/src/parse.rs` L928-934. -/
def patternArg (lib : IriLib) (ts : List Tok) : Out MacroError (SPattern × List Tok) :=
  expectArgument (fun g => (parseString g).bind (parsePattern lib)) ts

/-- One attribute of a type: the new attributes and the remaining tokens. An unknown identifier is ignored; `id` is always a kind.
`generators/rust/treeldr-rs-macros/src/parse.rs` L456-537. -/
def typeStep (lib : IriLib) (a : TypeAttrs) : Tok → List Tok → Out MacroError (TypeAttrs × List Tok)
  | .ident n, ts =>
    match Kind.ofIdent n with
    | some k => (replace a.kind k).bind fun k => .ok ({ a with kind := k }, ts)
    | none =>
      if n = "base" then
        (expectArgument (parseCompactIri lib) ts).bind fun v =>
        (replace a.base v.1).bind fun x => .ok ({ a with base := x }, v.2)
      else if n = "prefix" then
        (expectArgument (parseBindings lib) ts).bind fun v =>
        .ok ({ a with prefixes := v.1.foldl (fun acc b => bmapInsert strLe b.1 b.2 acc) a.prefixes }, v.2)
      else if n = "head" then
        (patternArg lib ts).bind fun v => (replace a.head v.1).bind fun x => .ok ({ a with head := x }, v.2)
      else if n = "tail" then
        (patternArg lib ts).bind fun v => (replace a.tail v.1).bind fun x => .ok ({ a with tail := x }, v.2)
      else if n = "resource" then
        (patternArg lib ts).bind fun v => (replace a.resource v.1).bind fun x => .ok ({ a with resource := x }, v.2)
      else if n = "datatype" then
        (expectArgument (parseCompactIri lib) ts).bind fun v =>
        (replace a.datatype v.1).bind fun x => .ok ({ a with datatype := x }, v.2)
      else if n = "input" then
        (expectArgument (parseList stringToken) ts).bind fun v =>
        (replace a.input v.1).bind fun x => .ok ({ a with input := x }, v.2)
      else if n = "intro" then
        (expectArgument (parseList stringToken) ts).bind fun v =>
        (replace a.intro v.1).bind fun x => .ok ({ a with intro := x }, v.2)
      else if n = "dataset" then
        (expectArgument (parseList (quadToken lib)) ts).bind fun v =>
        (replace a.dataset v.1).bind fun x => .ok ({ a with dataset := x }, v.2)
      else .ok (a, ts)
  | _, _ => .err .unexpectedToken

/-- One attribute of a field, variant or item. `generators/rust/treeldr-rs-macros/src/parse.rs` L577-628. -/
def compStep (lib : IriLib) (a : CompAttrs) : Tok → List Tok → Out MacroError (CompAttrs × List Tok)
  | .str s, ts =>
    (parsePattern lib s).bind fun p => (replace a.property p).bind fun x => .ok ({ a with property := x }, ts)
  | .lit _, _ => .err .unexpectedLiteral
  | .ident n, ts =>
    if n = "head" then
      (expectArgument parseString ts).bind fun v => (replace a.head v.1).bind fun x => .ok ({ a with head := x }, v.2)
    else if n = "rest" then
      (expectArgument parseString ts).bind fun v => (replace a.rest v.1).bind fun x => .ok ({ a with rest := x }, v.2)
    else if n = "intro" then
      (expectArgument (parseList stringToken) ts).bind fun v =>
      (replace a.intro v.1).bind fun x => .ok ({ a with intro := x }, v.2)
    else if n = "dataset" then
      (expectArgument (parseList (quadToken lib)) ts).bind fun v =>
      (replace a.dataset v.1).bind fun x => .ok ({ a with dataset := x }, v.2)
    else if n = "input" then
      (expectArgument (parseList (patternToken lib)) ts).bind fun v =>
      (replace a.input v.1).bind fun x => .ok ({ a with input := x }, v.2)
    else if n = "graph" then
      (expectArgument (parseGraph lib) ts).bind fun v =>
      (replace a.graph v.1).bind fun x => .ok ({ a with graph := x }, v.2)
    else .ok (a, ts)
  | _, _ => .err .unexpectedToken

/-- `while let Some(token) = tokens.next()`: each attribute is followed by a comma or the end.
`generators/rust/treeldr-rs-macros/src/parse.rs` L455-544, L576-635. The number of turns is at most that of tokens. -/
def attrLoop {α : Type} (step : α → Tok → List Tok → Out MacroError (α × List Tok)) : Nat → α → List Tok → Out MacroError α
  | _, a, [] => .ok a
  | 0, _, _ :: _ => .fuel
  | n + 1, a, t :: ts =>
    (step a t ts).bind fun r =>
    match r.2 with
    | [] => .ok r.1
    | .punct ',' :: ts => attrLoop step n r.1 ts
    | _ :: _ => .err .unexpectedToken

/-- `TypeAttributes::parse`, `ComponentAttributes::parse`: the loop over the `tldr` attributes.
`generators/rust/treeldr-rs-macros/src/parse.rs` L446-552, L567-643. -/
def parseAttrs {α : Type} (step : α → Tok → List Tok → Out MacroError (α × List Tok)) : List RAttr → α → Out MacroError α
  | [], a => .ok a
  | attr :: attrs, a =>
    if attr.path = "tldr" then
      match attr.tokens with
      | some ts => (attrLoop step ts.length a ts).bind fun a => parseAttrs step attrs a
      | none => .err .invalidMeta
    else parseAttrs step attrs a

/-! ## The derive macros: types -/

/-- `FieldType::new`: the type of the value, and whether the field is required. `generators/rust/treeldr-rs-macros/src/parse.rs`
L651-700. -/
def fieldType : RType → RType × Bool
  | .path [] "Option" [t] => (t, false)
  | t => (t, true)

/-- `extract_vec_item`. `generators/rust/treeldr-rs-macros/src/parse.rs` L702-735. -/
def extractVecItem : RType → Out MacroError RType
  | .path [] "Vec" [t] => .ok t
  | _ => .err .expectedVec

/-- `TypeMap::insert`: the IRI of the `i`-th type. `generators/rust/treeldr-rs-macros/src/parse.rs` L26-31. -/
def typeIri (i : Nat) : String := "rust:/#Type" ++ toString i

/-- `From<Vec<T>> for OneOrMany<T>`. `layouts/src/abs/syntax/mod.rs` L415-423. -/
def oneOrMany {α : Type} : List α → OneOrMany α
  | [a] => .one a
  | l => .many l

/-- The header of the layout. `generators/rust/treeldr-rs-macros/src/parse.rs` L117-125. -/
def TypeAttrs.header (a : TypeAttrs) : LayoutHeader where
  base := a.base
  prefixes := a.prefixes
  id := a.id
  input := (a.input.map oneOrMany).getD (.one "self")
  intro := (a.intro.map oneOrMany).getD (.many [])
  dataset := a.dataset.getD []
  extra := []

/-- The value of a field or item whose type is the `i`-th. `generators/rust/treeldr-rs-macros/src/parse.rs` L225-229;
`layouts/src/abs/syntax/layout/mod.rs` (`ValueInput::default`), `layouts/src/abs/syntax/layout/sum.rs` (`VariantInput::default`). -/
def CompAttrs.value (a : CompAttrs) (default : String) (i : Nat) : SFormat :=
  .format (.ref (typeIri i)) ((a.input.map oneOrMany).getD (.one (.var default))) (a.graph.getD none)

/-- The introduced variables of a field or item: `ValueIntro::default`. -/
def CompAttrs.valueIntro (a : CompAttrs) : OneOrMany String := (a.intro.map oneOrMany).getD (.one "value")

/-- The fields of a record, and the types so far. `generators/rust/treeldr-rs-macros/src/parse.rs` L213-235. -/
def parseFields (lib : IriLib) : List (String × List RAttr × RType) → List RType →
    Out MacroError (List (String × SField) × List RType)
  | [], ts => .ok ([], ts)
  | (name, attrs, ty) :: fs, ts =>
    (parseAttrs (compStep lib) attrs {}).bind fun a =>
    (parseFields lib fs (ts ++ [(fieldType ty).1])).bind fun r =>
    .ok ((name, .mk a.valueIntro (a.value "value" ts.length) (a.dataset.getD []) a.property (fieldType ty).2) :: r.1, r.2)

/-- The variants of a sum. `generators/rust/treeldr-rs-macros/src/parse.rs` L257-286. -/
def parseVariants (lib : IriLib) : List (String × List RAttr × RFields) → List RType →
    Out MacroError (List (String × SVariant) × List RType)
  | [], ts => .ok ([], ts)
  | (name, attrs, fields) :: vs, ts =>
    (parseAttrs (compStep lib) attrs {}).bind fun a =>
    match fields with
    | .unnamed [(_, ty)] =>
      (parseVariants lib vs (ts ++ [ty])).bind fun r =>
      .ok ((name, .mk ((a.intro.map oneOrMany).getD (.many [])) (a.value "self" ts.length) (a.dataset.getD [])) :: r.1, r.2)
    | .unnamed _ => .err .expectedOneField
    | _ => .err .expectedUnnamedFields

/-- The items of a tuple. `generators/rust/treeldr-rs-macros/src/parse.rs` L384-400. -/
def parseItems (lib : IriLib) : List (List RAttr × RType) → List RType → Out MacroError (List SItem × List RType)
  | [], ts => .ok ([], ts)
  | (attrs, ty) :: fs, ts =>
    (parseAttrs (compStep lib) attrs {}).bind fun a =>
    (parseItems lib fs (ts ++ [ty])).bind fun r =>
    .ok (.mk a.valueIntro (a.value "value" ts.length) (a.dataset.getD []) a.property :: r.1, r.2)

/-- `collect::<BTreeMap<String, _>>()`. -/
def collect {α : Type} (l : List (String × α)) : List (String × α) := l.foldl (fun m e => bmapInsert strLe e.1 e.2 m) []

/-- The only unnamed field of a structure. `generators/rust/treeldr-rs-macros/src/parse.rs` L304-308, L333-339. -/
def oneField : RData → Out MacroError (List RAttr × RType)
  | .struct (.unnamed [f]) => .ok f
  | .struct (.unnamed _) => .err .expectedOneField
  | .struct _ => .err .expectedUnnamedFields
  | _ => .err .expectedStruct

/-- `parse`, once the attributes and the kind are known: the layout and the types it refers to.
`generators/rust/treeldr-rs-macros/src/parse.rs` L113-420. -/
def parseKind (lib : IriLib) (a : TypeAttrs) (data : RData) : Kind → Out MacroError (SLayout × List RType)
  | .id => .ok (.id a.header none a.resource, [])
  | .unit => .ok (.unit a.header .unit, [])
  | .boolean => .ok (.boolean a.header a.resource a.datatype, [])
  | .number =>
    match a.datatype with
    | some dt => .ok (.number a.header a.resource dt, [])
    | none => .err .missingDatatype
  | .string => .ok (.textString a.header none a.resource a.datatype, [])
  | .bytes =>
    match a.datatype with
    | some dt => .ok (.byteString a.header a.resource dt, [])
    | none => .err .missingDatatype
  | .record =>
    match data with
    | .struct (.named fs) =>
      (parseFields lib fs []).bind fun r =>
      .ok (.product a.header ((collect r.1).map fun e => (.text e.1, e.2)), r.2)
    | .struct _ => .err .expectedNamedFields
    | _ => .err .expectedStruct
  | .sum =>
    match data with
    | .enum vs => (parseVariants lib vs []).bind fun r => .ok (.sum a.header (collect r.1), r.2)
    | _ => .err .expectedStruct
  | .set =>
    (oneField data).bind fun f =>
    (parseAttrs (compStep lib) f.1 {}).bind fun i =>
    (extractVecItem f.2).bind fun ty =>
    .ok (.unordered a.header (.mk i.valueIntro (i.value "value" 0) (i.dataset.getD []) i.property), [ty])
  | .list =>
    (oneField data).bind fun f =>
    (parseAttrs (compStep lib) f.1 {}).bind fun i =>
    (extractVecItem f.2).bind fun ty =>
    .ok (.ordered a.header (.node (i.head.getD "head") (i.rest.getD "rest") i.valueIntro (i.value "value" 0) i.dataset)
      (a.head.getD (.var "self")) (a.tail.getD (.iri rdfNil)), [ty])
  | .tuple =>
    match data with
    | .struct (.unnamed fs) => (parseItems lib fs []).bind fun r => .ok (.sized a.header r.1, r.2)
    | .struct _ => .err .expectedUnnamedFields
    | _ => .err .expectedStruct

/-- `parse`. `generators/rust/treeldr-rs-macros/src/parse.rs` L106-427. -/
def parseItem (lib : IriLib) (item : RItem) : Out MacroError (SLayout × List RType) :=
  (parseAttrs (typeStep lib) item.attrs {}).bind fun a =>
  match a.kind with
  | some k => parseKind lib a item.data k
  | none => (Kind.ofData item.data).bind fun k => parseKind lib a item.data k

/-- Errors of the derive macros. -/
inductive DeriveError where
  | parse (e : MacroError)
  | build (e : BuildError)
  deriving DecidableEq, Repr

/-- The layout of a type with derived implementations, and the types of the layouts that it refers to: the `i`-th one has the
identifier `typeIri i`. `generators/rust/treeldr-rs-macros/src/generate/de.rs` L38-47, `generate/ser.rs`. -/
def derive (lib : IriLib) (c : BuildCtx R) (debug : Bool) (fuel : Nat) (item : RItem) : Out DeriveError (Layout R × List RType) :=
  ((parseItem lib item).mapErr .parse).bind fun p =>
  match p.1.buildTop c ⟨[], 0⟩ with
  | (.ok r, b) =>
    match buildAll debug fuel b.layouts with
    | .ok l =>
      match l.lookup r with
      | some e => .ok (e.1, p.2)
      | none => .panic
    | .err e => nomatch e
    | .panic => .panic
    | .fuel => .fuel
  | (.err e, _) => .err (.build e)
  | (.panic, _) => .panic
  | (.fuel, _) => .fuel

end Verif.Rust
