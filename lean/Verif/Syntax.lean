import Verif.Layout
import Verif.RegExp
import Verif.Json

/-!
# Layout definitions and their compilation

Models the abstract syntax of layouts (`layouts/src/abs/syntax/**`) and its compilation into pre-built layouts
(`layouts/src/abs/mod.rs`, `layouts/src/abs/layout/**`).

Simplifications:
* IRIs and IRI references are strings; what the `iref` library does with them is a parameter (`IriLib`);
* the nested enums of literal, data and list layouts are flattened, as in `Verif/Layout.lean`;
* `HashMap`s are association lists, the newest entry first;
* variable indices (`u32`) are natural numbers;
* the resource denoted by an IRI or a literal is a function of that IRI or literal (`BuildCtx`): this is what the lexical
  context does; an interpretation may in addition record new resources in its tables.
-/

set_option linter.unusedSectionVars false

namespace Verif

/-! ## Abstract syntax -/

/-- `CompactIri(IriRefBuf)`. `layouts/src/abs/syntax/pattern/compact_iri.rs` L10-12. -/
abbrev CompactIri := String

/-- `OneOrMany<T>`. `layouts/src/abs/syntax/mod.rs` L381-386. -/
inductive OneOrMany (α : Type) where
  | one (a : α)
  | many (l : List α)
  deriving DecidableEq, Repr

/-- `OneOrMany::as_slice`. `layouts/src/abs/syntax/mod.rs` L403-408. -/
def OneOrMany.asSlice {α : Type} : OneOrMany α → List α
  | .one a => [a]
  | .many l => l

/-- `OneOrMany::len`. `layouts/src/abs/syntax/mod.rs` L396-401. -/
def OneOrMany.len {α : Type} : OneOrMany α → Nat
  | .one _ => 1
  | .many l => l.length

/-- `OneOrMany::is_empty`. `layouts/src/abs/syntax/mod.rs` L389-394. -/
def OneOrMany.isEmpty {α : Type} : OneOrMany α → Bool
  | .one _ => false
  | .many l => l.isEmpty

/-- `LiteralType`. `layouts/src/abs/syntax/pattern/literal.rs` L56-63. -/
inductive SLitType where
  | iri (i : CompactIri)
  | language (tag : String)
  deriving DecidableEq, Repr

/-- `Pattern`. `layouts/src/abs/syntax/pattern/mod.rs` L17-22. -/
inductive SPattern where
  | var (name : String)
  | iri (i : CompactIri)
  | literal (value : String) (type : SLitType)
  deriving DecidableEq, Repr

/-- `Resource`. `layouts/src/abs/syntax/resource.rs` L10-25. -/
inductive SResource where
  | boolean (b : Bool)
  | number (n : Int)
  | string (s : String)
  | typed (value : String) (type : CompactIri)
  deriving DecidableEq, Repr

/-- `LayoutHeader`. `layouts/src/abs/syntax/layout/mod.rs` L389-411. `BTreeMap`s are the list of their entries in key order;
`Dataset` is a list of quads of patterns. -/
structure LayoutHeader where
  base : Option CompactIri := none
  prefixes : List (String × CompactIri) := []
  id : Option CompactIri := none
  input : OneOrMany String := .one "self"
  intro : OneOrMany String := .many []
  dataset : List (Quad SPattern) := []
  extra : List (CompactIri × SResource) := []
  deriving DecidableEq, Repr

mutual
/-- `Layout`, with `LiteralLayout`, `DataLayout` and `ListLayout` flattened. `layouts/src/abs/syntax/layout/mod.rs` L46-96,
`literal.rs`, `product.rs`, `sum.rs`, `list.rs`, `union.rs`, `intersection.rs`. -/
inductive SLayout where
  | unit (h : LayoutHeader) (const : Value)
  | boolean (h : LayoutHeader) (resource : Option SPattern) (datatype : Option CompactIri)
  | number (h : LayoutHeader) (resource : Option SPattern) (datatype : CompactIri)
  | byteString (h : LayoutHeader) (resource : Option SPattern) (datatype : CompactIri)
  | textString (h : LayoutHeader) (pattern : Option RegExp) (resource : Option SPattern) (datatype : Option CompactIri)
  | id (h : LayoutHeader) (pattern : Option RegExp) (resource : Option SPattern)
  | product (h : LayoutHeader) (fields : List (Value × SField))
  | sum (h : LayoutHeader) (variants : List (String × SVariant))
  | ordered (h : LayoutHeader) (node : SNode) (head tail : SPattern)
  | unordered (h : LayoutHeader) (item : SItem)
  | sized (h : LayoutHeader) (items : List SItem)
  | bool (b : Bool)
  | union (h : LayoutHeader)
  | intersection (h : LayoutHeader)

/-- `LayoutRef`. `layouts/src/abs/syntax/layout/mod.rs` L267-271. -/
inductive SLayoutRef where
  | ref (i : CompactIri)
  | layout (l : SLayout)

/-- `ValueFormatOrLayout` (with `ValueFormat`) and `VariantFormatOrLayout` (with `VariantFormat`), which have the same
shape. `layouts/src/abs/syntax/mod.rs` L445-450, L498-508; `layouts/src/abs/syntax/layout/sum.rs` L151-156, L205-215. -/
inductive SFormat where
  | format (layout : SLayoutRef) (input : OneOrMany SPattern) (graph : Option (Option SPattern))
  | layout (r : SLayoutRef)

/-- `Field`. `layouts/src/abs/syntax/layout/product.rs` L135-151. -/
inductive SField where
  | mk (intro : OneOrMany String) (value : SFormat) (dataset : List (Quad SPattern)) (property : Option SPattern)
      (required : Bool)

/-- `Variant`. `layouts/src/abs/syntax/layout/sum.rs` L71-81. -/
inductive SVariant where
  | mk (intro : OneOrMany String) (value : SFormat) (dataset : List (Quad SPattern))

/-- `ListItem`. `layouts/src/abs/syntax/layout/list.rs` L402-415. -/
inductive SItem where
  | mk (intro : OneOrMany String) (value : SFormat) (dataset : List (Quad SPattern)) (property : Option SPattern)

/-- `ListNodeOrLayout`, with `ListNode`. `layouts/src/abs/syntax/layout/list.rs` L148-153, L238-260. -/
inductive SNode where
  | node (head rest : String) (intro : OneOrMany String) (value : SFormat) (dataset : Option (List (Quad SPattern)))
  | layout (r : SLayoutRef)
end

/-- `Layout::id`. `layouts/src/abs/syntax/layout/mod.rs` L99-110. -/
def SLayout.layoutId : SLayout → Option CompactIri
  | .unit h _ => h.id
  | .boolean h _ _ => h.id
  | .number h _ _ => h.id
  | .byteString h _ _ => h.id
  | .textString h _ _ _ => h.id
  | .id h _ _ => h.id
  | .product h _ => h.id
  | .sum h _ => h.id
  | .ordered h _ _ _ => h.id
  | .unordered h _ => h.id
  | .sized h _ => h.id
  | .bool _ => none
  | .union h => h.id
  | .intersection h => h.id

/-! ## Scopes -/

/-- `BuildError`. `layouts/src/abs/syntax/build.rs` L18-39. -/
inductive BuildError where
  | noBaseIri (r : String)
  | invalidIri (i : String)
  | undeclaredVariable (name : String)
  | layoutRedefinition
  | missingLiteralTargetResource
  | noPropertySubject
  | noPropertyObject
  deriving DecidableEq, Repr

/-- The functions of the `iref`, `rdf_types`, `langtag` and `xsd_types` libraries used by the abstract syntax. -/
structure IriLib where
  /-- `IriRef::new(s).is_ok()` -/
  isIriRef : String → Bool
  /-- `Iri::new(s).is_ok()`, `IriRef::as_iri(s).is_some()` -/
  isIri : String → Bool
  /-- `IriRef::resolved(r, base)` -/
  resolve : (r base : String) → String
  /-- `BlankId::new(s).is_ok()` -/
  isBlankId : String → Bool
  /-- `LangTagBuf::new(s).is_ok()` -/
  isLangTag : String → Bool
  /-- the datatype of `xsd_types::Decimal::from(n)` -/
  decimalType : Int → String

/-- The characters before and after the first colon. -/
def splitColon : List Char → List Char × List Char
  | [] => ([], [])
  | c :: cs => if c = ':' then ([], cs) else ((c :: (splitColon cs).1), (splitColon cs).2)

/-- The scheme of an IRI: what precedes its first colon. -/
def iriScheme (i : String) : String := String.ofList (splitColon i.toList).1

/-- `iri.split_once(':').unwrap().1`. -/
def iriSuffix (i : String) : String := String.ofList (splitColon i.toList).2

/-- `Scope`. `layouts/src/abs/syntax/build.rs` L150-164. -/
structure Scope where
  baseIri : Option String := none
  prefixes : List (String × String) := []
  vars : List (String × Nat) := []
  count : Nat := 0
  deriving DecidableEq, Repr

namespace Scope

/-- `bind`. `layouts/src/abs/syntax/build.rs` L233-240. -/
def bind (s : Scope) (name : String) : Scope :=
  { s with vars := (name, s.count) :: s.vars, count := s.count + 1 }

/-- `variable`. `layouts/src/abs/syntax/build.rs` L243-248. -/
def index (s : Scope) (name : String) : Out BuildError Nat :=
  match s.vars.lookup name with
  | some i => .ok i
  | none => .err (.undeclaredVariable name)

/-- `with_intro`. `layouts/src/abs/syntax/build.rs` L197-208. -/
def withIntro (s : Scope) (intro : List String) : Scope := intro.foldl bind s

/-- `without_variables`. `layouts/src/abs/syntax/build.rs` L212-219. -/
def withoutVariables (s : Scope) : Scope := { s with vars := [], count := 0 }

end Scope

/-- `CompactIri::resolve`. `layouts/src/abs/syntax/pattern/compact_iri.rs` L15-30. -/
def CompactIri.resolve (lib : IriLib) (s : Scope) (i : CompactIri) : Out BuildError String :=
  if lib.isIri i then
    match s.prefixes.lookup (iriScheme i) with
    | some p =>
      let r := p ++ iriSuffix i
      if lib.isIri r then .ok r else .err (.invalidIri r)
    | none => .ok i
  else
    match s.baseIri with
    | some b => .ok (lib.resolve i b)
    | none => .err (.noBaseIri i)

namespace Scope

/-- The new base IRI: resolved in the enclosing scope. `layouts/src/abs/syntax/build.rs` L173-175. -/
def newBase (lib : IriLib) (s : Scope) : Option CompactIri → Out BuildError (Option String)
  | some b => (CompactIri.resolve lib s b).bind fun i => .ok (some i)
  | none => .ok s.baseIri

/-- The new prefixes: each is resolved in the enclosing scope `s`. `layouts/src/abs/syntax/build.rs` L177-181. -/
def newPrefixes (lib : IriLib) (s : Scope) : List (String × CompactIri) → List (String × String) →
    Out BuildError (List (String × String))
  | [], acc => .ok acc
  | (name, p) :: ps, acc => (CompactIri.resolve lib s p).bind fun i => newPrefixes lib s ps ((name, i) :: acc)

/-- `with_header`. `layouts/src/abs/syntax/build.rs` L170-193. -/
def withHeader (lib : IriLib) (s : Scope) (h : LayoutHeader) : Out BuildError Scope :=
  (s.newBase lib h.base).bind fun base =>
  (s.newPrefixes lib h.prefixes s.prefixes).bind fun ps =>
  .ok ({ s with baseIri := base, prefixes := ps }.withIntro (h.input.asSlice ++ h.intro.asSlice))

end Scope

/-! ## Compilation of patterns, datasets and headers -/

/-- What the `Context` trait and the orders of `BTreeMap`/`BTreeDataset` provide. `layouts/src/abs/syntax/build.rs` L41-129. -/
structure BuildCtx (R : Type) where
  lib : IriLib
  /-- `iri_resource` -/
  iri : String → R
  /-- `literal_resource` -/
  lit : RdfLit → R
  /-- `anonymous_resource`: the `n`-th generated resource -/
  fresh : Nat → R
  /-- order of resources -/
  le : R → R → Bool
  /-- order of quads of patterns -/
  leQ : QuadPat R → QuadPat R → Bool

/-- `xsd_types::XSD_BOOLEAN`. -/
def xsdBoolean : String := "http://www.w3.org/2001/XMLSchema#boolean"
/-- `xsd_types::XSD_STRING`. -/
def xsdString : String := "http://www.w3.org/2001/XMLSchema#string"
/-- `rdf_types::RDF_FIRST`. -/
def rdfFirst : String := "http://www.w3.org/1999/02/22-rdf-syntax-ns#first"
/-- `rdf_types::RDF_REST`. -/
def rdfRest : String := "http://www.w3.org/1999/02/22-rdf-syntax-ns#rest"
/-- `rdf_types::RDF_NIL`. -/
def rdfNil : String := "http://www.w3.org/1999/02/22-rdf-syntax-ns#nil"

variable {R : Type} [DecidableEq R]

/-- `BTreeDataset::insert`: insertion into a sorted set. -/
def dsInsert {α : Type} [DecidableEq α] (le : α → α → Bool) (q : α) : List α → List α
  | [] => [q]
  | q' :: l => if q = q' then q' :: l else if le q q' then q :: q' :: l else q' :: dsInsert le q l

/-- `LiteralType::resolve`. `layouts/src/abs/syntax/pattern/literal.rs` L73-80. -/
def SLitType.resolve (lib : IriLib) (s : Scope) : SLitType → Out BuildError LitType
  | .iri i => (CompactIri.resolve lib s i).bind fun i => .ok (.any i)
  | .language tag => .ok (.langString tag)

/-- `Build for Pattern`. `layouts/src/abs/syntax/dataset.rs` L92-107. -/
def SPattern.build (c : BuildCtx R) (s : Scope) : SPattern → Out BuildError (Pattern R)
  | .var name => (s.index name).bind fun i => .ok (.var i)
  | .iri i => (CompactIri.resolve c.lib s i).bind fun i => .ok (.res (c.iri i))
  | .literal v ty => (ty.resolve c.lib s).bind fun ty => .ok (.res (c.lit ⟨v, ty⟩))

/-- `.as_ref().map(|g| g.build(context, scope)).transpose()`. `layouts/src/abs/syntax/dataset.rs` L122-126. -/
def optBuild (c : BuildCtx R) (s : Scope) : Option SPattern → Out BuildError (Option (Pattern R))
  | some p => (p.build c s).bind fun p => .ok (some p)
  | none => .ok none

/-- `Build for Quad`. `layouts/src/abs/syntax/dataset.rs` L109-128. -/
def SQuad.build (c : BuildCtx R) (s : Scope) (q : Quad SPattern) : Out BuildError (QuadPat R) :=
  (q.s.build c s).bind fun qs =>
  (q.p.build c s).bind fun qp =>
  (q.o.build c s).bind fun qo =>
  (optBuild c s q.g).bind fun qg =>
  .ok ⟨qs, qp, qo, qg⟩

/-- `Build for Dataset`. `layouts/src/abs/syntax/dataset.rs` L34-48. -/
def SDataset.build (c : BuildCtx R) (s : Scope) : List (Quad SPattern) → List (QuadPat R) → Out BuildError (List (QuadPat R))
  | [], acc => .ok acc
  | q :: qs, acc => (SQuad.build c s q).bind fun q => SDataset.build c s qs (dsInsert c.leQ q acc)

/-- `Build for CompactIri`. `layouts/src/abs/syntax/pattern/compact_iri.rs` L77-86. -/
def CompactIri.build (c : BuildCtx R) (s : Scope) (i : CompactIri) : Out BuildError R :=
  (CompactIri.resolve c.lib s i).bind fun i => .ok (c.iri i)

/-- `Build for Resource`, `Build for TypedString`. `layouts/src/abs/syntax/resource.rs` L63-91, L118-124. -/
def SResource.build (c : BuildCtx R) (s : Scope) : SResource → Out BuildError R
  | .boolean b => .ok (c.lit ⟨if b then "true" else "false", .any xsdBoolean⟩)
  | .number n => .ok (c.lit ⟨toString n, .any (c.lib.decimalType n)⟩)
  | .string v => .ok (c.lit ⟨v, .any xsdString⟩)
  | .typed v ty => (CompactIri.resolve c.lib s ty).bind fun ty => .ok (c.lit ⟨v, .any ty⟩)

/-- `Build for ExtraProperties`. `layouts/src/abs/syntax/layout/mod.rs` L479-493. -/
def buildExtra (c : BuildCtx R) (s : Scope) : List (CompactIri × SResource) → List (R × R) → Out BuildError (List (R × R))
  | [], acc => .ok acc
  | (p, v) :: es, acc =>
    (CompactIri.build c s p).bind fun p =>
    (v.build c s).bind fun v =>
    buildExtra c s es (bmapInsert c.le p v acc)

/-- `BuiltLayoutHeader`, with the scope of the layout. `layouts/src/abs/syntax/layout/mod.rs` L458-466. -/
structure BuiltHeader (R : Type) where
  input : Nat
  intro : Nat
  dataset : List (QuadPat R)
  properties : List (R × R)
  scope : Scope

/-- `Build for LayoutHeader`. `layouts/src/abs/syntax/layout/mod.rs` L437-456. -/
def LayoutHeader.build (c : BuildCtx R) (s : Scope) (h : LayoutHeader) : Out BuildError (BuiltHeader R) :=
  (s.withHeader c.lib h).bind fun s =>
  (SDataset.build c s h.dataset []).bind fun ds =>
  (buildExtra c s h.extra []).bind fun ps =>
  .ok ⟨h.input.len, h.intro.len, ds, ps, s⟩

/-- `literal_resource`. `layouts/src/abs/syntax/layout/literal.rs` L262-278. -/
def literalResource (c : BuildCtx R) (s : Scope) (input : OneOrMany String) : Option SPattern → Out BuildError (Pattern R)
  | some r => r.build c s
  | none => if input.isEmpty then .err .missingLiteralTargetResource else .ok (.var 0)

/-- The datatype of a literal layout, with its default. `layouts/src/abs/syntax/layout/literal.rs` L298-304. -/
def buildDatatype (c : BuildCtx R) (s : Scope) (default : String) : Option CompactIri → Out BuildError R
  | some i => CompactIri.build c s i
  | none => .ok (c.iri default)

/-- `default_list_dataset`. `layouts/src/abs/syntax/layout/list.rs` L185-211. -/
def defaultListDataset (c : BuildCtx R) (head rest : Nat) (first : Pattern R) : List (QuadPat R) :=
  dsInsert c.leQ ⟨.var head, .res (c.iri rdfRest), .var rest, none⟩
    (dsInsert c.leQ ⟨.var head, .res (c.iri rdfFirst), first, none⟩ [])

/-- The list of inputs of a value format. `layouts/src/abs/syntax/layout/mod.rs` L566-569. -/
def buildInputs (c : BuildCtx R) (s : Scope) (l : List SPattern) : Out BuildError (List (Pattern R)) :=
  Out.mapM' (SPattern.build c s) l

/-- The graph of a value format. `layouts/src/abs/syntax/layout/mod.rs` L574-578. -/
def buildGraph (c : BuildCtx R) (s : Scope) : Option (Option SPattern) → Out BuildError (Option (Option (Pattern R)))
  | none => .ok none
  | some none => .ok (some none)
  | some (some p) => (p.build c s).bind fun p => .ok (some (some p))

/-- The dataset of a field, list item or set item: the quad of the `property` is added. `object` is the first introduced
variable. `layouts/src/abs/syntax/layout/product.rs` L94-113, `layouts/src/abs/syntax/layout/list.rs` L489-514. -/
def buildPropDataset (c : BuildCtx R) (s : Scope) (subject object : Option Nat) (ds : List (Quad SPattern)) :
    Option SPattern → Out BuildError (List (QuadPat R))
  | none => SDataset.build c s ds []
  | some p =>
    (SDataset.build c s ds []).bind fun ds =>
    match subject with
    | none => .err .noPropertySubject
    | some subject =>
      match object with
      | none => .err .noPropertyObject
      | some object => (p.build c s).bind fun p => .ok (dsInsert c.leQ ⟨.var subject, p, .var object, none⟩ ds)

/-! ## Pre-built layouts and the builder -/

/-- `abs::Layout<R>`, without unions and intersections, which are never built. The patterns of strings and identifiers are
regular expressions. `layouts/src/abs/layout/mod.rs` L27-51, `layouts/src/abs/layout/literal/**`. -/
inductive AbsLayout (R : Type) where
  | never
  | unit (l : UnitLayout R)
  | boolean (l : DataLayout R)
  | number (l : DataLayout R)
  | byteString (l : DataLayout R)
  | textString (l : DataLayout R) (pattern : Option RegExp)
  | id (input intro : Nat) (dataset : List (QuadPat R)) (pattern : Option RegExp) (resource : Pattern R)
  | product (l : ProductLayout R)
  | unordered (l : UnorderedLayout R)
  | ordered (l : OrderedLayout R)
  | sized (l : SizedLayout R)
  | sum (l : SumLayout R)
  | always

/-- `.as_ref().map(|e| e.build())`. `layouts/src/abs/layout/literal/data.rs` L52. -/
def buildPattern (debug : Bool) (fuel : Nat) : Option RegExp → Out Empty (Option (DetAut Nat CharRange))
  | none => .ok none
  | some e => (e.build debug fuel).bind fun a => .ok (some a)

/-- `abs::Layout::build`. `layouts/src/abs/layout/mod.rs` L53-70, `layouts/src/abs/layout/literal/**`. -/
def AbsLayout.build (debug : Bool) (fuel : Nat) : AbsLayout R → Out Empty (Layout R)
  | .never => .ok .never
  | .unit l => .ok (.unit l)
  | .boolean l => .ok (.boolean l)
  | .number l => .ok (.number l)
  | .byteString l => .ok (.byteString l)
  | .textString l p => (buildPattern debug fuel p).bind fun p => .ok (.textString { l with pattern := p })
  | .id input intro ds p r =>
    (buildPattern debug fuel p).bind fun p => .ok (.id { input := input, intro := intro, dataset := ds, pattern := p, resource := r })
  | .product l => .ok (.product l)
  | .unordered l => .ok (.unordered l)
  | .ordered l => .ok (.ordered l)
  | .sized l => .ok (.sized l)
  | .sum l => .ok (.sum l)
  | .always => .ok .always

/-- A pre-built layout with its extra properties. -/
structure Entry (R : Type) where
  layout : AbsLayout R
  extra : List (R × R)

/-- The builder (`Builder<R>`, a `BTreeMap`) and the number of resources generated so far. `layouts/src/abs/mod.rs` L14-23,
L100-110. -/
structure Builder (R : Type) where
  layouts : List (R × Entry R)
  next : Nat

/-- A computation with the builder: on failure the builder keeps the changes made so far (`&mut`). -/
def BuildM (R α : Type) := Builder R → Out BuildError α × Builder R

namespace BuildM

/-- The `?` operator. -/
def bind {α β : Type} (x : BuildM R α) (f : α → BuildM R β) : BuildM R β := fun b =>
  match x b with
  | (.ok a, b') => f a b'
  | (.err e, b') => (.err e, b')
  | (.panic, b') => (.panic, b')
  | (.fuel, b') => (.fuel, b')

/-- Returns a value. -/
def pure {α : Type} (a : α) : BuildM R α := fun b => (.ok a, b)

/-- A computation that does not use the builder. -/
def lift {α : Type} (x : Out BuildError α) : BuildM R α := fun b => (x, b)

end BuildM

open BuildM

/-- `Context::anonymous_resource`. `layouts/src/abs/syntax/build.rs` L88-90. -/
def anonymous (c : BuildCtx R) : BuildM R R := fun b => (.ok (c.fresh b.next), { b with next := b.next + 1 })

/-- The insertion of a layout, and the check that it was not defined before: the insertion comes first.
`layouts/src/abs/syntax/layout/mod.rs` L254-262, `layouts/src/abs/mod.rs` L58-74. -/
def insertLayout (c : BuildCtx R) (id : R) (e : Entry R) : BuildM R R := fun b =>
  let b' := { b with layouts := bmapInsert c.le id e b.layouts }
  if (b.layouts.lookup id).isSome then (.err .layoutRedefinition, b') else (.ok id, b')

/-- The identifier of a layout: resolved in the enclosing scope, or generated.
`layouts/src/abs/syntax/layout/mod.rs` L237-243. -/
def buildId (c : BuildCtx R) (s : Scope) : Option CompactIri → BuildM R R
  | some i => lift (CompactIri.build c s i)
  | none => anonymous c

/-- `Build for Layout`, given the compilation of its body. `layouts/src/abs/syntax/layout/mod.rs` L230-264. -/
def defineLayout (c : BuildCtx R) (s : Scope) (id : Option CompactIri) (body : BuildM R (Entry R)) : BuildM R R :=
  (buildId c s id).bind fun r => body.bind fun e => insertLayout c r e

/-- `Some(0)` if there are inputs: the subject of the `property` of a field or item.
`layouts/src/abs/syntax/layout/list.rs` L455-460, `layouts/src/abs/syntax/layout/product.rs` L97-100. -/
def subjectOf (input : OneOrMany String) : Option Nat := if input.isEmpty then none else some 0

/-- The first introduced variable, if any. `layouts/src/abs/syntax/layout/list.rs` L489-493,
`layouts/src/abs/syntax/layout/product.rs` L101-107. -/
def objectOf (intro : OneOrMany String) (count : Nat) : Option Nat := if intro.isEmpty then none else some count

/-- The dataset of a list node without explicit dataset. `layouts/src/abs/syntax/layout/list.rs` L340-357. -/
def nodeDataset (c : BuildCtx R) (s : Scope) (head rest : Nat) : SFormat → Option (List (Quad SPattern)) →
    Out BuildError (List (QuadPat R))
  | _, some ds => SDataset.build c s ds []
  | .format _ input _, none =>
    match input.asSlice with
    | [p] => (p.build c s).bind fun first => .ok (defaultListDataset c head rest first)
    | _ => .ok []
  | .layout _, none => (s.index "value").bind fun i => .ok (defaultListDataset c head rest (.var i))

mutual
/-- The compilation of the contents of a layout. `layouts/src/abs/syntax/layout/mod.rs` L243-252; `literal.rs` L232-250,
L280-307, L353-372, L418-437, L522-548, L602-627; `product.rs` L78-133; `sum.rs` L120-149; `list.rs` L304-322, L455-478,
L570-598; `union.rs` L52-58 and `intersection.rs` L52-58 (`unimplemented!()`). -/
def SLayout.buildBody (c : BuildCtx R) : SLayout → Scope → BuildM R (Entry R)
  | .unit h k, s =>
    (lift (h.build c s)).bind fun h =>
    pure ⟨.unit { input := h.input, intro := h.intro, dataset := h.dataset, const := k }, h.properties⟩
  | .boolean h r dt, s =>
    (lift (h.build c s)).bind fun b =>
    (lift (literalResource c b.scope h.input r)).bind fun r =>
    (lift (buildDatatype c b.scope xsdBoolean dt)).bind fun dt =>
    pure ⟨.boolean { input := b.input, intro := b.intro, dataset := b.dataset, resource := r, datatype := dt }, b.properties⟩
  | .number h r dt, s =>
    (lift (h.build c s)).bind fun b =>
    (lift (literalResource c b.scope h.input r)).bind fun r =>
    (lift (CompactIri.build c b.scope dt)).bind fun dt =>
    pure ⟨.number { input := b.input, intro := b.intro, dataset := b.dataset, resource := r, datatype := dt }, b.properties⟩
  | .byteString h r dt, s =>
    (lift (h.build c s)).bind fun b =>
    (lift (literalResource c b.scope h.input r)).bind fun r =>
    (lift (CompactIri.build c b.scope dt)).bind fun dt =>
    pure ⟨.byteString { input := b.input, intro := b.intro, dataset := b.dataset, resource := r, datatype := dt }, b.properties⟩
  | .textString h p r dt, s =>
    (lift (h.build c s)).bind fun b =>
    (lift (literalResource c b.scope h.input r)).bind fun r =>
    (lift (buildDatatype c b.scope xsdString dt)).bind fun dt =>
    pure ⟨.textString { input := b.input, intro := b.intro, dataset := b.dataset, resource := r, datatype := dt } p, b.properties⟩
  | .id h p r, s =>
    (lift (h.build c s)).bind fun b =>
    (lift (literalResource c b.scope h.input r)).bind fun r =>
    pure ⟨.id b.input b.intro b.dataset p r, b.properties⟩
  | .product h fields, s =>
    (lift (h.build c s)).bind fun b =>
    (buildFields c (subjectOf h.input) (h.input.len + h.intro.len) fields b.scope).bind fun fields =>
    pure ⟨.product { input := b.input, intro := b.intro, fields := fields, dataset := b.dataset }, b.properties⟩
  | .sum h variants, s =>
    (lift (h.build c s)).bind fun b =>
    (buildVariants c variants b.scope).bind fun variants =>
    pure ⟨.sum { input := b.input, intro := b.intro, variants := variants, dataset := b.dataset }, b.properties⟩
  | .ordered h node head tail, s =>
    (lift (h.build c s)).bind fun b =>
    (node.build c b.scope).bind fun node =>
    (lift (head.build c b.scope)).bind fun head =>
    (lift (tail.build c b.scope)).bind fun tail =>
    pure ⟨.ordered { input := b.input, intro := b.intro, node := node, head := head, tail := tail, dataset := b.dataset }, b.properties⟩
  | .unordered h item, s =>
    (lift (h.build c s)).bind fun b =>
    (item.build c (subjectOf h.input) b.scope).bind fun item =>
    pure ⟨.unordered { input := b.input, intro := b.intro, item := item, dataset := b.dataset }, b.properties⟩
  | .sized h items, s =>
    (lift (h.build c s)).bind fun b =>
    (buildItems c (subjectOf h.input) items b.scope).bind fun items =>
    pure ⟨.sized { input := b.input, intro := b.intro, items := items, dataset := b.dataset }, b.properties⟩
  | .bool false, _ => pure ⟨.never, []⟩
  | .bool true, _ => pure ⟨.always, []⟩
  | .union _, _ => lift .panic
  | .intersection _, _ => lift .panic

/-- `Build for LayoutRef`. `layouts/src/abs/syntax/layout/mod.rs` L321-334. -/
def SLayoutRef.build (c : BuildCtx R) : SLayoutRef → Scope → BuildM R R
  | .ref i, s => lift (CompactIri.build c s.withoutVariables i)
  | .layout l, s => defineLayout c s.withoutVariables l.layoutId (l.buildBody c s.withoutVariables)

/-- `Build for ValueFormatOrLayout`, `ValueFormat`, `VariantFormatOrLayout`, `VariantFormat`. `default` is the variable given
to a layout without explicit inputs: `value` or `self`. `layouts/src/abs/syntax/mod.rs` L477-496,
`layouts/src/abs/syntax/layout/mod.rs` L558-580, `layouts/src/abs/syntax/layout/sum.rs` L184-203, L251-273. -/
def SFormat.build (c : BuildCtx R) (default : String) : SFormat → Scope → BuildM R (ValueFormat R)
  | .format l input graph, s =>
    (lift (buildInputs c s input.asSlice)).bind fun inputs =>
    (l.build c s).bind fun l =>
    (lift (buildGraph c s graph)).bind fun graph =>
    pure ⟨l, inputs, graph⟩
  | .layout l, s =>
    (l.build c s).bind fun l =>
    (lift (SPattern.build c s (.var default))).bind fun p =>
    pure ⟨l, [p], none⟩

/-- The loop over the fields of a record. `layouts/src/abs/syntax/layout/product.rs` L86-124. The fields are in key order, so
inserting them one by one keeps this order. -/
def buildFields (c : BuildCtx R) (subject : Option Nat) (count : Nat) : List (Value × SField) → Scope →
    BuildM R (List (Value × Field R))
  | [], _ => pure []
  | (name, f) :: fs, s =>
    (f.build c subject count s).bind fun f =>
    (buildFields c subject count fs s).bind fun fs =>
    pure ((name, f) :: fs)

/-- A field of a record. `layouts/src/abs/syntax/layout/product.rs` L87-123. -/
def SField.build (c : BuildCtx R) (subject : Option Nat) (count : Nat) : SField → Scope → BuildM R (Field R)
  | .mk intro value ds property required, s =>
    (lift (buildPropDataset c (s.withIntro intro.asSlice) subject (objectOf intro count) ds property)).bind fun ds =>
    (value.build c "value" (s.withIntro intro.asSlice)).bind fun value =>
    pure ⟨intro.len, value, ds, required⟩

/-- The loop over the variants of a sum. `layouts/src/abs/syntax/layout/sum.rs` L129-139. -/
def buildVariants (c : BuildCtx R) : List (String × SVariant) → Scope → BuildM R (List (Variant R))
  | [], _ => pure []
  | (name, v) :: vs, s =>
    (v.build c name s).bind fun v =>
    (buildVariants c vs s).bind fun vs =>
    pure (v :: vs)

/-- A variant of a sum. `layouts/src/abs/syntax/layout/sum.rs` L130-138. -/
def SVariant.build (c : BuildCtx R) (name : String) : SVariant → Scope → BuildM R (Variant R)
  | .mk intro value ds, s =>
    (value.build c "self" (s.withIntro intro.asSlice)).bind fun value =>
    (lift (SDataset.build c (s.withIntro intro.asSlice) ds [])).bind fun ds =>
    pure ⟨name, intro.len, value, ds⟩

/-- The loop over the items of a sized list. `layouts/src/abs/syntax/layout/list.rs` L585-588. -/
def buildItems (c : BuildCtx R) (subject : Option Nat) : List SItem → Scope → BuildM R (List (ItemLayout R))
  | [], _ => pure []
  | i :: is, s =>
    (i.build c subject s).bind fun i =>
    (buildItems c subject is s).bind fun is =>
    pure (i :: is)

/-- `ListItem::build`. `layouts/src/abs/syntax/layout/list.rs` L480-523. -/
def SItem.build (c : BuildCtx R) (subject : Option Nat) : SItem → Scope → BuildM R (ItemLayout R)
  | .mk intro value ds property, s =>
    (lift (buildPropDataset c (s.withIntro intro.asSlice) subject (objectOf intro s.count) ds property)).bind fun ds =>
    (value.build c "value" (s.withIntro intro.asSlice)).bind fun value =>
    pure ⟨intro.len, value, ds⟩

/-- `Build for ListNodeOrLayout`, `Build for ListNode`. `layouts/src/abs/syntax/layout/list.rs` L213-236, L324-360. -/
def SNode.build (c : BuildCtx R) : SNode → Scope → BuildM R (ItemLayout R)
  | .node head rest intro value ds, s =>
    (value.build c "value" (s.withIntro (head :: rest :: intro.asSlice))).bind fun v =>
    (lift (nodeDataset c (s.withIntro (head :: rest :: intro.asSlice)) s.count (s.count + 1) value ds)).bind fun ds =>
    pure ⟨intro.len, v, ds⟩
  | .layout r, s =>
    (r.build c s).bind fun r =>
    pure ⟨1, ⟨r, [.var (s.count + 2)], none⟩, defaultListDataset c s.count (s.count + 1) (.var (s.count + 2))⟩
end

/-- `Build for Layout`. `layouts/src/abs/syntax/layout/mod.rs` L230-264. -/
def SLayout.build (c : BuildCtx R) (l : SLayout) (s : Scope) : BuildM R R := defineLayout c s l.layoutId (l.buildBody c s)

/-- `Layout::build_with_context`. `layouts/src/abs/syntax/layout/mod.rs` L131-141. -/
def SLayout.buildWithContext (c : BuildCtx R) (l : SLayout) : BuildM R R := l.build c {}

/-- `Layout::build`: each call starts a new blank node generator. `layouts/src/abs/syntax/layout/mod.rs` L112-115. -/
def SLayout.buildTop (c : BuildCtx R) (l : SLayout) : BuildM R R := fun b => l.buildWithContext c { b with next := 0 }

/-- The loop of `Builder::build`. `layouts/src/abs/mod.rs` L86-94. -/
def buildAll (debug : Bool) (fuel : Nat) : List (R × Entry R) → Out Empty (List (R × Layout R × List (R × R)))
  | [] => .ok []
  | (r, e) :: l => (e.layout.build debug fuel).bind fun a => (buildAll debug fuel l).bind fun l => .ok ((r, a, e.extra) :: l)

end Verif
