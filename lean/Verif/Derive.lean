import Verif.Hydrate
import Verif.Dehydrate
import Verif.Prelude

/-!
# Derived deserialization and serialization

Models the code that `#[derive(DeserializeLd)]` and `#[derive(SerializeLd)]` generate for a type, from the layout
derived from that type (see `Verif/Rust.lean` for the derivation of the layout), and the runtime library it calls.

* The macros: `generators/rust/treeldr-rs-macros/src/generate/de.rs`, `generators/rust/treeldr-rs-macros/src/generate/ser.rs`.
* The runtime: `generators/rust/treeldr-rs/src/de/mod.rs`, `generators/rust/treeldr-rs/src/datatypes.rs`. Its `Matching`,
  `Substitution`, `Environment`, `select_inputs` and `select_graph` are copies of those of `layouts`
  (`generators/rust/treeldr-rs/src/de/matching.rs`, `generators/rust/treeldr-rs/src/pattern.rs`,
  `generators/rust/treeldr-rs/src/ser/environment.rs`), and share their models.

The generated code is the unfolding of a fixed scheme along the layout; what is modelled is that scheme, as a function
of the layout. A value of the Rust type derived from the layout `ref` is represented by a typed tree of type `ref`: a
structure is a map without entries for the fields that are `None`, an enumeration value is a variant, a `Vec` or a tuple
structure is a list.

Simplifications: `fn deserialize_ld_with` takes an array of the right length, by typing; the model takes a list. That the
generated code compiles is not modelled (`DESIGN.md` lists layouts for which it does not seem to). Types that call
each other can recurse for ever: as for hydration, the model has a bound.
-/

set_option linter.unusedSectionVars false
set_option linter.unusedSimpArgs false

namespace Verif

/-- `treeldr::de::Error`. `generators/rust/treeldr-rs/src/de/mod.rs` L39-70. `InvalidId` is left out: identifier types are
taken to be able to hold every IRI (`TryFrom`). -/
inductive DsError where
  | dataAmbiguity
  | missingData
  | missingField (name : Value)
  | missingId
  | ambiguousId
  | ambiguousLiteralValue
  | invalidLiteralValue
  | literalTypeMismatch
  | expectedLiteral
  deriving DecidableEq, Repr

/-- `impl From<matching::Error> for Error`. `generators/rust/treeldr-rs/src/de/mod.rs` L72-79. -/
def DsError.ofMatching : Matching.Error → DsError
  | .ambiguity => .dataAmbiguity
  | .empty => .missingData

/-- The types implemented by the runtime. `generators/rust/treeldr-rs/src/datatypes.rs`: `rdf_types::Id`, `String`, and the
integer types, with their datatype and range (L213-222). -/
inductive Prim where
  | id
  | string
  | int (datatype : String) (lo hi : Int)
  deriving DecidableEq, Repr

/-- The types of the runtime, by name. There is none for the unit type and `bool`.
`generators/rust/treeldr-rs/src/datatypes.rs` L15-134, L213-222. -/
def primTypes : List (String × Prim) :=
  [("Id", .id), ("String", .string),
   ("u8", .int (xsdIri "unsignedByte") 0 255),
   ("u16", .int (xsdIri "unsignedShort") 0 65535),
   ("u32", .int (xsdIri "unsignedInt") 0 4294967295),
   ("u64", .int (xsdIri "unsignedLong") 0 18446744073709551615),
   ("i8", .int (xsdIri "byte") (-128) 127),
   ("i16", .int (xsdIri "short") (-32768) 32767),
   ("i32", .int (xsdIri "int") (-2147483648) 2147483647),
   ("i64", .int (xsdIri "long") (-9223372036854775808) 9223372036854775807)]

/-- Everything derived deserialization reads. The layouts refer to resources; `known` tells which of these the
interpretation knows (`rdf.iri_interpretation(..)` is `Some`). `fromLiteral ref s` is
`FromRdfLiteral::from_rdf_literal(s)` for the type of the literal layout `ref`, and `parseInt` is the part of
`ParseXsd::parse_xsd` common to the integer types. -/
structure DsCtx (R : Type) where
  reg : Registry R
  prim : R → Option Prim
  known : R → Bool
  irisOf : R → List String
  blankIdsOf : R → List String
  literalsOf : R → List RdfLit
  datatypeIri : R → String
  fromLiteral : R → String → Option (TypedLiteral R)
  parseInt : String → Option Int
  ds : List (Quad R)

/-- `rdf_types::RDF_LANG_STRING`. -/
def rdfLangString : String := "http://www.w3.org/1999/02/22-rdf-syntax-ns#langString"

namespace Derived

variable {R : Type} [DecidableEq R]

/-- `generate_pattern`: is the result `Some`? `generators/rust/treeldr-rs-macros/src/generate/de.rs` L648-677. -/
def knows (c : DsCtx R) : Pattern R → Bool
  | .var _ => true
  | .res r => c.known r

/-- `generate_pattern` on the components of a quad, in `dataset_to_array`.
`generators/rust/treeldr-rs-macros/src/generate/de.rs` L624-641. -/
def knowsQuad (c : DsCtx R) (q : QuadPat R) : Bool :=
  knows c q.s && knows c q.p && knows c q.o &&
    match q.g with
    | some g => knows c g
    | none => true

/-- `dataset_to_array(..).ok_or(MissingData)?`. -/
def patterns (c : DsCtx R) (pats : List (QuadPat R)) : Out DsError (List (QuadPat R)) :=
  if pats.all (knowsQuad c) then .ok pats else .err .missingData

/-- `Matching::new(..).into_required_unique()?`, e.g. `generators/rust/treeldr-rs-macros/src/generate/de.rs` L66-77. -/
def requiredMatch (c : DsCtx R) (σ : Subst R) (pats : List (QuadPat R)) (graph : Option R) : Out DsError (Subst R) :=
  (patterns c pats).bind fun pats =>
    (Matching.intoRequiredUnique c.ds (Matching.new σ (withDefaultGraph pats graph))).mapErr DsError.ofMatching

/-- `Matching::new(..).into_unique()?`, e.g. `generators/rust/treeldr-rs-macros/src/generate/de.rs` L196-210. -/
def uniqueMatch (c : DsCtx R) (σ : Subst R) (pats : List (QuadPat R)) (graph : Option R) :
    Out DsError (Option (Subst R)) :=
  (patterns c pats).bind fun pats =>
    (Matching.intoUnique c.ds (Matching.new σ (withDefaultGraph pats graph))).mapErr DsError.ofMatching

/-- `#resource.ok_or(MissingData)?.apply(&substitution).into_resource().unwrap()`, e.g.
`generators/rust/treeldr-rs-macros/src/generate/de.rs` L79. -/
def resource (c : DsCtx R) (p : Pattern R) (σ : Subst R) : Out DsError R :=
  if knows c p then Out.ofOption (p.value σ) else .err .missingData

/-- `select_inputs(&#inputs.ok_or(MissingData)?, &substitution)`.
`generators/rust/treeldr-rs/src/de/mod.rs` L12-23. -/
def selectInputs (c : DsCtx R) (inputs : List (Pattern R)) (σ : Subst R) : Out DsError (List R) :=
  if inputs.all (knows c) then Out.mapM' (fun p => Out.ofOption (p.value σ)) inputs else .err .missingData

/-- `select_graph(current_graph, &#graph.ok_or(MissingData)?, &substitution)`.
`generators/rust/treeldr-rs/src/de/mod.rs` L25-37. -/
def selectGraph (c : DsCtx R) (current : Option R) (pat : Option (Option (Pattern R))) (σ : Subst R) :
    Out DsError (Option R) :=
  match pat with
  | none => .ok current
  | some none => .ok none
  | some (some p) => (resource c p σ).map some

/-- The loop over the IRIs of a resource, and the match that follows.
`generators/rust/treeldr-rs-macros/src/generate/de.rs` L81-98. -/
def idValue (c : DsCtx R) (r : R) : Out DsError String :=
  match c.irisOf r with
  | [] => .err .missingId
  | [iri] => .ok iri
  | _ :: _ :: _ => .err .ambiguousId

/-- The type of a literal, as compared with the expected datatype.
`generators/rust/treeldr-rs-macros/src/generate/de.rs` L735-742. -/
def literalType (l : RdfLit) : String :=
  match l.type with
  | .any i => i
  | .langString _ => rdfLangString

/-- The loop over the literals of a resource. `generators/rust/treeldr-rs-macros/src/generate/de.rs` L732-751. A literal
that cannot be parsed is skipped. -/
def scan {α} (parse : String → Option α) (datatype : String) : List RdfLit → Option α → Out DsError (Option α)
  | [], result => .ok result
  | l :: ls, result =>
    if literalType l = datatype then
      match parse l.value with
      | some v => if result.isSome then .err .ambiguousLiteralValue else scan parse datatype ls (some v)
      | none => scan parse datatype ls result
    else scan parse datatype ls result

/-- The match following the loops over literals. `generators/rust/treeldr-rs-macros/src/generate/de.rs` L753-760,
`generators/rust/treeldr-rs/src/datatypes.rs` L199-206. -/
def literalResult {α} (literals : List RdfLit) : Option α → Out DsError α
  | some v => .ok v
  | none => if literals.isEmpty then .err .expectedLiteral else .err .literalTypeMismatch

/-- `generate_data`. `generators/rust/treeldr-rs-macros/src/generate/de.rs` L689-762. -/
def data (c : DsCtx R) (graph : Option R) (ref : R) (l : DataLayout R) (inputs : List R) : Out DsError (TypedValue R) :=
  (requiredMatch c ((Subst.fromInputs inputs).intro l.intro) l.dataset graph).bind fun σ =>
  (resource c l.resource σ).bind fun r =>
  (scan (c.fromLiteral ref) (c.datatypeIri l.datatype) (c.literalsOf r) none).bind fun v =>
  (literalResult (c.literalsOf r) v).map .literal

/-- `impl DeserializeLd for rdf_types::Id`. `generators/rust/treeldr-rs/src/datatypes.rs` L60-81. -/
def primId (c : DsCtx R) (r : R) : Out DsError String :=
  match c.irisOf r with
  | [iri] => .ok iri
  | _ :: _ :: _ => .err .ambiguousId
  | [] =>
    match c.blankIdsOf r with
    | [] => .err .missingId
    | [b] => .ok b
    | _ :: _ :: _ => .err .ambiguousId

/-- `impl DeserializeLd for String`. `generators/rust/treeldr-rs/src/datatypes.rs` L122-132. -/
def primString : List RdfLit → Out DsError String
  | [] => .err .missingData
  | l :: ls => if l.type = .any xsdString then .ok l.value else primString ls

/-- `parse_xsd` of an integer type. -/
def parseRange (c : DsCtx R) (lo hi : Int) (s : String) : Option Int :=
  (c.parseInt s).filter fun z => decide (lo ≤ z ∧ z ≤ hi)

/-- The loop over literals of the integer types. `generators/rust/treeldr-rs/src/datatypes.rs` L179-197. -/
def scanInt (parse : String → Option Int) (datatype : String) : List RdfLit → Option Int → Out DsError (Option Int)
  | [], result => .ok result
  | l :: ls, result =>
    if l.type = .any datatype then
      match parse l.value with
      | some v => if result.isSome then .err .ambiguousLiteralValue else scanInt parse datatype ls (some v)
      | none => .err .invalidLiteralValue
    else scanInt parse datatype ls result

/-- The `DeserializeLd` implementations of the runtime. `generators/rust/treeldr-rs/src/datatypes.rs`. -/
def primValue (c : DsCtx R) (ref r : R) : Prim → Out DsError (TypedLiteral R)
  | .id => (primId c r).map (.id · ref)
  | .string => (primString (c.literalsOf r)).map (.textString · ref)
  | .int dt lo hi =>
    (scanInt (parseRange c lo hi) dt (c.literalsOf r) none).bind fun v =>
    (literalResult (c.literalsOf r) v).map fun (z : Int) => .number (z : Rat) ref

/-- The recursive call: graph, type, inputs. -/
abbrev Rec (R : Type) := Option R → R → List R → Out DsError (TypedValue R)

/-- The code following a match everywhere: select the inputs and the graph of the sub-value, and deserialize it, e.g.
`generators/rust/treeldr-rs-macros/src/generate/de.rs` L212-224. -/
def subValue (c : DsCtx R) (rec : Rec R) (graph : Option R) (fmt : ValueFormat R) (σ : Subst R) :
    Out DsError (TypedValue R) :=
  (selectInputs c fmt.input σ).bind fun ins =>
  (selectGraph c graph fmt.graph σ).bind fun g =>
    rec g fmt.layout ins

/-- The fields of a structure: each is deserialized to an option.
`generators/rust/treeldr-rs-macros/src/generate/de.rs` L173-228, L256-263. -/
def readFields (c : DsCtx R) (rec : Rec R) (graph : Option R) (σ : Subst R) :
    List (Value × Field R) → Out DsError (List (Option (TypedValue R)))
  | [] => .ok []
  | (_, field) :: rest =>
    (uniqueMatch c (σ.intro field.intro) field.dataset graph).bind fun
      | some σ' =>
        (subValue c rec graph field.value σ').bind fun v =>
        (readFields c rec graph σ rest).bind fun r => .ok (some v :: r)
      | none => (readFields c rec graph σ rest).bind fun r => .ok (none :: r)

/-- The structure is built from the options. `generators/rust/treeldr-rs-macros/src/generate/de.rs` L230-237, L265-267. -/
def unwrapFields : List (Value × Field R) → List (Option (TypedValue R)) → Out DsError (List (Value × TypedValue R))
  | (key, _) :: fs, some v :: vs => (unwrapFields fs vs).bind fun r => .ok ((key, v) :: r)
  | (key, field) :: fs, none :: vs =>
    if field.required then .err (.missingField key) else unwrapFields fs vs
  | _, _ => .ok []

/-- The variants of an enumeration, in turn, and what follows. `generators/rust/treeldr-rs-macros/src/generate/de.rs`
L274-344. -/
def variants (c : DsCtx R) (rec : Rec R) (graph : Option R) (ref : R) (σ : Subst R) :
    Nat → List (Variant R) → Option (TypedValue R) → Out DsError (TypedValue R)
  | _, [], some v => .ok v
  | _, [], none => .err .missingData
  | i, variant :: rest, result =>
    (uniqueMatch c (σ.intro variant.intro) variant.dataset graph).bind fun
      | some σ' =>
        (subValue c rec graph variant.value σ').bind fun v =>
          if result.isSome then .err .dataAmbiguity
          else variants c rec graph ref σ (i + 1) rest (some (.variant v ref i))
      | none => variants c rec graph ref σ (i + 1) rest result

/-- The loop over the matches of the item pattern. `generators/rust/treeldr-rs-macros/src/generate/de.rs` L380-416. -/
def unorderedItems (c : DsCtx R) (rec : Rec R) (graph : Option R) (fmt : ValueFormat R) :
    Nat → Matching.Stack R → Out DsError (List (TypedValue R))
  | 0, _ => .fuel
  | n + 1, st =>
    (Matching.next c.ds st).bind fun
      | none => .ok []
      | some (σ, st') =>
        (subValue c rec graph fmt σ).bind fun v =>
        (unorderedItems c rec graph fmt n st').bind fun vs => .ok (v :: vs)

/-- The loop over the nodes of an ordered list. `generators/rust/treeldr-rs-macros/src/generate/de.rs` L455-498. -/
def nodes (c : DsCtx R) (rec : Rec R) (graph : Option R) (node : ItemLayout R) (σ : Subst R) (tail : R) :
    Nat → R → Out DsError (List (TypedValue R))
  | n, head =>
    if head = tail then .ok []
    else
      match n with
      | 0 => .fuel
      | n + 1 =>
        (requiredMatch c ((Subst.push σ (some head)).intro (1 + node.intro)) node.dataset graph).bind fun σ' =>
        (subValue c rec graph node.value σ').bind fun v =>
        (Out.ofOption (σ'.get (σ.length + 1))).bind fun head' =>
        (nodes c rec graph node σ tail n head').bind fun vs => .ok (v :: vs)

/-- The items of a tuple structure. `generators/rust/treeldr-rs-macros/src/generate/de.rs` L501-582. -/
def sizedItems (c : DsCtx R) (rec : Rec R) (graph : Option R) (σ : Subst R) :
    List (ItemLayout R) → Out DsError (List (TypedValue R))
  | [] => .ok []
  | item :: rest =>
    (requiredMatch c (σ.intro item.intro) item.dataset graph).bind fun σ' =>
    (subValue c rec graph item.value σ').bind fun v =>
    (sizedItems c rec graph σ rest).bind fun vs => .ok (v :: vs)

/-- The body of the derived function. `generators/rust/treeldr-rs-macros/src/generate/de.rs` L52-587. The macro itself
panics on the layouts `never` and `always`. -/
def layout (c : DsCtx R) (rec : Rec R) (n : Nat) (graph : Option R) (ref : R) (inputs : List R) :
    Layout R → Out DsError (TypedValue R)
  | .never => .panic
  | .unit l =>
    (requiredMatch c ((Subst.fromInputs inputs).intro l.intro) l.dataset graph).bind fun _ =>
      .ok (.literal (.unit l.const ref))
  | .boolean l => data c graph ref l inputs
  | .number l => data c graph ref l inputs
  | .byteString l => data c graph ref l inputs
  | .textString l => data c graph ref l.toDataLayout inputs
  | .id l =>
    (requiredMatch c ((Subst.fromInputs inputs).intro l.intro) l.dataset graph).bind fun σ =>
    (resource c l.resource σ).bind fun r =>
    (idValue c r).map fun iri => .literal (.id iri ref)
  | .sum l =>
    (requiredMatch c ((Subst.fromInputs inputs).intro l.intro) l.dataset graph).bind fun σ =>
      variants c rec graph ref σ 0 l.variants none
  | .product l =>
    (requiredMatch c ((Subst.fromInputs inputs).intro l.intro) l.dataset graph).bind fun σ =>
    (readFields c rec graph σ l.fields).bind fun data =>
    (unwrapFields l.fields data).bind fun record => .ok (.map record ref)
  | .unordered l =>
    (requiredMatch c ((Subst.fromInputs inputs).intro l.intro) l.dataset graph).bind fun σ =>
    (patterns c l.item.dataset).bind fun pats =>
      let st := Matching.new (σ.intro l.item.intro) (withDefaultGraph pats graph)
      (unorderedItems c rec graph l.item.value (Matching.weight c.ds.length st + 1) st).bind fun items =>
        .ok (.list items ref)
  | .ordered l =>
    (requiredMatch c ((Subst.fromInputs inputs).intro l.intro) l.dataset graph).bind fun σ =>
    (resource c l.head σ).bind fun head =>
    (resource c l.tail σ).bind fun tail =>
    (nodes c rec graph l.node σ tail n head).bind fun items => .ok (.list items ref)
  | .sized l =>
    (requiredMatch c ((Subst.fromInputs inputs).intro l.intro) l.dataset graph).bind fun σ =>
    (sizedItems c rec graph σ l.items).bind fun items => .ok (.list items ref)
  | .always => .panic

/-- `DeserializeLd::deserialize_ld_with` of the type `ref`: of the runtime, or derived. `n` bounds the depth of the
recursion and the length of ordered lists. A reference to a type that does not exist cannot be compiled. -/
def deserialize (c : DsCtx R) : Nat → Rec R
  | 0, _, _, _ => .fuel
  | n + 1, graph, ref, inputs =>
    match c.prim ref with
    | some p => (Out.ofOption inputs.head?).bind fun r => (primValue c ref r p).map .literal
    | none =>
      match c.reg ref with
      | none => .panic
      | some l => layout c (deserialize c n) n graph ref inputs l

end Derived

/-! ## Serialization -/

/-- What derived serialization reads: layouts, which of their types are implemented by the runtime, and the text of
a literal (`to_string`, or `as_ref` for text). Identifiers are IRIs or blank node identifiers. -/
structure SeCtx where
  reg : Registry Term
  prim : Term → Option Prim
  text : TypedLiteral Term → String
  isIri : String → Bool

namespace Derived

/-- `instantiate_pattern`: `unwrap`. `generators/rust/treeldr-rs/src/ser/environment.rs` L46-54. -/
def instPattern (env : Env IRes) : Pattern Term → Out DeError IRes
  | .var x =>
    match env.get x with
    | .ok r => .ok r
    | .error _ => .panic
  | .res t => .ok (.term t)

/-- `instantiate_quad`. `generators/rust/treeldr-rs/src/ser/environment.rs` L69-82. -/
def instQuad (env : Env IRes) (q : QuadPat Term) : Out DeError (Quad IRes) :=
  (instPattern env q.s).bind fun s =>
  (instPattern env q.p).bind fun p =>
  (instPattern env q.o).bind fun o =>
    match q.g with
    | none => .ok ⟨s, p, o, none⟩
    | some g => (instPattern env g).bind fun g => .ok ⟨s, p, o, some g⟩

/-- `instantiate_dataset`. `generators/rust/treeldr-rs/src/ser/environment.rs` L84-92. -/
def instDataset (env : Env IRes) : List (QuadPat Term) → DeM Unit
  | [] => .pure ()
  | q :: qs =>
    (DeM.read fun _ => instQuad env q).bind fun q =>
    (DeM.modify fun s => { s with out := Dehydrate.insertQuad s.out q }).bind fun _ =>
      instDataset env qs

/-- `pattern_interpretation`. `generators/rust/treeldr-rs-macros/src/generate/ser.rs` L483-494: a variable is looked for
among the inputs. -/
def target (inputs : List IRes) : Pattern Term → Out DeError IRes
  | .var i => Out.ofOption inputs[i]?
  | .res t => .ok (.term t)

/-- `term_to_datatype`. `generators/rust/treeldr-rs-macros/src/generate/ser.rs` L496-514: an error of the macro if the
datatype is not an IRI, represented as a panic. -/
def datatypeIri : Term → Out DeError String
  | .iri i => .ok i
  | _ => .panic

/-- The identifier written by `assign_iri` or `assign_blank_id`. -/
def idTerm (c : SeCtx) (s : String) : Term := if c.isIri s then .iri s else .blank s

/-- Literal layouts. `generators/rust/treeldr-rs-macros/src/generate/ser.rs` L88-159. -/
def writeData (c : SeCtx) (inputs : List IRes) (l : DataLayout Term) (lit : TypedLiteral Term) : DeM Unit :=
  (Dehydrate.intro (.root inputs) l.intro).bind fun env =>
  (instDataset env l.dataset).bind fun _ =>
  (DeM.read fun _ => datatypeIri l.datatype).bind fun dt =>
  (DeM.read fun _ => target inputs l.resource).bind fun r =>
    Dehydrate.assign r (.literal ⟨c.text lit, .any dt⟩)

/-- The recursive call: value, graph, type, inputs. -/
abbrev SRec := TypedValue Term → Option IRes → Term → List IRes → DeM Unit

/-- A sub-value: `serialize_ld_with(value, rdf, &env.instantiate_patterns(..), graph, output)?`, e.g.
`generators/rust/treeldr-rs-macros/src/generate/ser.rs` L181-203. -/
def writeSub (rec : SRec) (graph : Option IRes) (fmt : ValueFormat Term) (env : Env IRes) (v : TypedValue Term) :
    DeM Unit :=
  (DeM.read fun _ => Out.mapM' (instPattern env) fmt.input).bind fun ins =>
  (DeM.read fun _ =>
    match fmt.graph with
    | some none => .ok none
    | some (some g) => (instPattern env g).map some
    | none => .ok graph).bind fun g =>
    rec v g fmt.layout ins

/-- A field, variant or item: introduce its variables, write its dataset, and its value. -/
def writeItem (rec : SRec) (graph : Option IRes) (env : Env IRes) (intro : Nat) (dataset : List (QuadPat Term))
    (fmt : ValueFormat Term) (v : TypedValue Term) : DeM Unit :=
  (Dehydrate.intro env intro).bind fun env =>
  (instDataset env dataset).bind fun _ => writeSub rec graph fmt env v

/-- The fields of a structure, in the order of the layout. `generators/rust/treeldr-rs-macros/src/generate/ser.rs`
L166-228. `self.field` always exists for a required field, by typing. -/
def writeFields (rec : SRec) (graph : Option IRes) (env : Env IRes) (m : List (Value × TypedValue Term)) :
    List (Value × Field Term) → DeM Unit
  | [] => .pure ()
  | (key, field) :: rest =>
    match m.find? (fun e => e.1 == key) with
    | some e =>
      (writeItem rec graph env field.intro field.dataset field.value e.2).bind fun _ =>
        writeFields rec graph env m rest
    | none =>
      if field.required then DeM.read fun _ => .panic
      else writeFields rec graph env m rest

/-- The items of an unordered list. `generators/rust/treeldr-rs-macros/src/generate/ser.rs` L306-319. -/
def writeItems (rec : SRec) (graph : Option IRes) (env : Env IRes) (item : ItemLayout Term) :
    List (TypedValue Term) → DeM Unit
  | [] => .pure ()
  | v :: rest =>
    (writeItem rec graph env item.intro item.dataset item.value v).bind fun _ => writeItems rec graph env item rest

/-- The items of an ordered list. `generators/rust/treeldr-rs-macros/src/generate/ser.rs` L352-376. -/
def writeNodes (rec : SRec) (graph : Option IRes) (env : Env IRes) (node : ItemLayout Term) (tail : Pattern Term) :
    IRes → List (TypedValue Term) → DeM Unit
  | _, [] => .pure ()
  | head, v :: rest =>
    (if rest.isEmpty then DeM.read fun _ => instPattern env tail else Dehydrate.newResource).bind fun next =>
    (writeItem rec graph (env.bind [head, next]) node.intro node.dataset node.value v).bind fun _ =>
      writeNodes rec graph env node tail next rest

/-- The items of a tuple structure. `generators/rust/treeldr-rs-macros/src/generate/ser.rs` L383-426. -/
def writeSized (rec : SRec) (graph : Option IRes) (env : Env IRes) :
    List (TypedValue Term) → List (ItemLayout Term) → DeM Unit
  | [], [] => .pure ()
  | v :: vs, item :: is =>
    (writeItem rec graph env item.intro item.dataset item.value v).bind fun _ => writeSized rec graph env vs is
  | _, _ => DeM.read fun _ => .panic

/-- The `SerializeLd` implementations of the runtime. `generators/rust/treeldr-rs/src/datatypes.rs` L23-41, L93-103,
L147-158. -/
def writePrim (c : SeCtx) (r : IRes) : Prim → TypedLiteral Term → DeM Unit
  | .id, .id s _ => Dehydrate.assign r (idTerm c s)
  | .string, .textString s _ => Dehydrate.assign r (.literal ⟨s, .any xsdString⟩)
  | .int dt _ _, lit => Dehydrate.assign r (.literal ⟨c.text lit, .any dt⟩)
  | _, _ => DeM.read fun _ => .panic

/-- The body of the derived function. `generators/rust/treeldr-rs-macros/src/generate/ser.rs` L50-433. By typing, the value
has the shape of the layout; the other cases are reported as panics. -/
def writeLayout (c : SeCtx) (rec : SRec) (v : TypedValue Term) (graph : Option IRes) (inputs : List IRes) :
    Layout Term → DeM Unit
  | .unit l =>
    (Dehydrate.intro (.root inputs) l.intro).bind fun env => instDataset env l.dataset
  | .boolean l =>
    match v with
    | .literal lit => writeData c inputs l lit
    | _ => DeM.read fun _ => .panic
  | .number l =>
    match v with
    | .literal lit => writeData c inputs l lit
    | _ => DeM.read fun _ => .panic
  | .byteString l =>
    match v with
    | .literal lit => writeData c inputs l lit
    | _ => DeM.read fun _ => .panic
  | .textString l =>
    match v with
    | .literal lit => writeData c inputs l.toDataLayout lit
    | _ => DeM.read fun _ => .panic
  | .id l =>
    match v with
    | .literal (.id s _) =>
      (Dehydrate.intro (.root inputs) l.intro).bind fun env =>
      (instDataset env l.dataset).bind fun _ =>
      (DeM.read fun _ => Out.ofOption inputs[0]?).bind fun r => Dehydrate.assign r (idTerm c s)
    | _ => DeM.read fun _ => .panic
  | .sum l =>
    match v with
    | .variant w _ i =>
      (Dehydrate.intro (.root inputs) l.intro).bind fun env =>
      (instDataset env l.dataset).bind fun _ =>
        match l.variants[i]? with
        | some x => writeItem rec graph env x.intro x.dataset x.value w
        | none => DeM.read fun _ => .panic
    | _ => DeM.read fun _ => .panic
  | .product l =>
    match v with
    | .map m _ =>
      (Dehydrate.intro (.root inputs) l.intro).bind fun env =>
      (instDataset env l.dataset).bind fun _ => writeFields rec graph env m l.fields
    | _ => DeM.read fun _ => .panic
  | .unordered l =>
    match v with
    | .list vs _ =>
      (Dehydrate.intro (.root inputs) l.intro).bind fun env =>
      (instDataset env l.dataset).bind fun _ => writeItems rec graph env l.item vs
    | _ => DeM.read fun _ => .panic
  | .ordered l =>
    match v with
    | .list vs _ =>
      (Dehydrate.intro (.root inputs) l.intro).bind fun env =>
      (instDataset env l.dataset).bind fun _ =>
      (DeM.read fun _ => instPattern env l.head).bind fun head =>
        writeNodes rec graph env l.node l.tail head vs
    | _ => DeM.read fun _ => .panic
  | .sized l =>
    match v with
    | .list vs _ =>
      (Dehydrate.intro (.root inputs) l.intro).bind fun env =>
      (instDataset env l.dataset).bind fun _ => writeSized rec graph env vs l.items
    | _ => DeM.read fun _ => .panic
  | .never => DeM.read fun _ => .panic
  | .always => DeM.read fun _ => .panic

/-- `SerializeLd::serialize_ld_with` of the type `ref`. The interpretation is that of `dehydrate` (see
`Verif/Dehydrate.lean`). -/
def serialize (c : SeCtx) : Nat → SRec
  | 0, _, _, _, _ => fun s => (.fuel, s)
  | n + 1, v, graph, ref, inputs =>
    match c.prim ref with
    | some p =>
      match v, inputs with
      | .literal lit, r :: _ => writePrim c r p lit
      | _, _ => DeM.read fun _ => .panic
    | none =>
      match c.reg ref with
      | none => DeM.read fun _ => .panic
      | some l => writeLayout c (serialize c n) v graph inputs l

end Derived

end Verif
