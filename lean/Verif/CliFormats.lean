import Verif.Cli
import Mathlib.Data.List.Dedup

/-!
# Formats and commands

Models `src/format/rdf.rs`, `src/format/tree.rs`, `src/rdf.rs` and the commands of `src/main.rs`: the names of the formats, and
all the commands with all the formats.

A text is given by what it stands for in each of the syntaxes, if anything: the quads of an N-Quads document, a JSON document,
or a CBOR document, as the calls that `serde_cbor` makes to Serde. Pretty printing, which only changes white space, is not
modelled.
-/

set_option linter.unusedSectionVars false
set_option linter.unusedSimpArgs false

namespace Verif

/-! ## Names of formats -/

/-- `RDFFormat`. `src/format/rdf.rs` L18-21. -/
inductive RdfFormat where
  | nQuads
  deriving DecidableEq, Repr

/-- `TreeFormat`. `src/format/tree.rs` L32-36. -/
inductive TreeFormat where
  | json
  | cbor
  deriving DecidableEq, Repr

/-- `POSSIBLE_VALUES`. `src/format/rdf.rs` L24-25. -/
def RdfFormat.possibleValues : List String := ["application/n-quads", "n-quads", "nquads", "nq"]

/-- `RDFFormat::new`. `src/format/rdf.rs` L33-38. -/
def RdfFormat.new (name : String) : Option RdfFormat :=
  if name = "nq" ∨ name = "nquads" ∨ name = "n-quads" ∨ name = "application/n-quads" then some .nQuads else none

/-- `as_str`, also used to display the format. `src/format/rdf.rs` L40-44, L78-82. -/
def RdfFormat.asStr : RdfFormat → String
  | .nQuads => "application/n-quads"

/-- `POSSIBLE_VALUES`. `src/format/tree.rs` L39-40. -/
def TreeFormat.possibleValues : List String := ["application/json", "json", "application/cbor", "cbor"]

/-- `TreeFormat::new`. `src/format/tree.rs` L48-54. -/
def TreeFormat.new (name : String) : Option TreeFormat :=
  if name = "application/json" ∨ name = "json" then some .json
  else if name = "application/cbor" ∨ name = "cbor" then some .cbor
  else none

/-- `as_str`, also used to display the format. `src/format/tree.rs` L56-61, L125-129. -/
def TreeFormat.asStr : TreeFormat → String
  | .json => "application/json"
  | .cbor => "application/cbor"

/-- Errors of the command line parser. -/
inductive ArgError where
  | invalidValue (s : String)
  deriving DecidableEq, Repr

/-- `PossibleValuesParser::new(POSSIBLE_VALUES).map(|s| Self::new(&s).unwrap())`: the command line parser rejects the values
that are not listed. `src/format/rdf.rs` L27-31, `src/format/tree.rs` L42-46. -/
def parseFormatName {α : Type} (possible : List String) (new : String → Option α) (s : String) : Out ArgError α :=
  if s ∈ possible then Out.ofOption (new s) else .err (.invalidValue s)

/-- `RDFFormat::parser`. `src/format/rdf.rs` L27-31. -/
def RdfFormat.parse (s : String) : Out ArgError RdfFormat := parseFormatName possibleValues new s

/-- `TreeFormat::parser`. `src/format/tree.rs` L42-46. -/
def TreeFormat.parse (s : String) : Out ArgError TreeFormat := parseFormatName possibleValues new s

/-- `parse_term`. `src/rdf.rs` L8-16. `isBlank` and `isIri` are the syntaxes of blank node identifiers and of IRIs, which belong
to libraries. -/
def parseTerm (isBlank isIri : String → Bool) (s : String) : Out ArgError Term :=
  if isBlank s then .ok (.blank s) else if isIri s then .ok (.iri s) else .err (.invalidValue s)

/-! ## Input and output -/

variable {F : Type}

/-- What the text of the standard input stands for, in each syntax. -/
structure Input (F : Type) where
  nQuads : Option (List (Quad Term))
  json : Option Json
  cbor : Option (SerdeValue F)

/-- What is printed: an N-Quads document, a JSON document, a CBOR document written from a Serde value, or a CBOR document
written from a `serde_cbor::Value`. -/
inductive Printed (F : Type) where
  | nQuads (quads : List (Quad Term))
  | json (j : Json)
  | serde (v : SerdeValue F)
  | cbor (c : Cbor F)

/-- `RDFFormat::load`. `src/format/rdf.rs` L46-59. The quads are collected in a `BTreeDataset`; their order is not modelled. -/
def RdfFormat.load : RdfFormat → Input F → Out CliError (List (Quad Term))
  | .nQuads, input =>
    match input.nQuads with
    | some quads => .ok quads.dedup
    | none => .err .loadRdf

/-- `RDFFormat::write`. `src/format/rdf.rs` L61-75. -/
def RdfFormat.write : RdfFormat → List (Quad Term) → Printed F
  | .nQuads, quads => .nQuads quads

/-- `TreeFormat::load`. `src/format/tree.rs` L63-74. -/
def TreeFormat.load (ofF64 : F → Option Rat) : TreeFormat → Input F → Out CliError Value
  | .json, input =>
    match input.json with
    | some j => Out.ofTotal j.toValue
    | none => .err .loadTree
  | .cbor, input =>
    match input.cbor.bind (Value.deserialize ofF64) with
    | some v => .ok v
    | none => .err .loadTree

/-- `TreeFormat::write_untyped`. `src/format/tree.rs` L104-122. -/
def TreeFormat.writeUntyped (toF64 : Rat → F) (v : Value) : TreeFormat → Out CliError (Printed F)
  | .json => (v.toJson.mapErr .nonJsonValue).bind fun j => .ok (.json j)
  | .cbor => (Out.ofTotal (v.serialize toF64)).bind fun s => .ok (.serde s)

/-- `TreeFormat::write_typed`. `src/format/tree.rs` L76-102. `tagOf` is `get_layout_tag` for the layouts. -/
def TreeFormat.writeTyped (toF64 : Rat → F) (collect : List (Cbor F × Cbor F) → List (Cbor F × Cbor F))
    (tagOf : Term → Out InvalidTag (Option Nat)) (v : TypedValue Term) : TreeFormat → Out CliError (Printed F)
  | .json => (v.untype.toJson.mapErr .nonJsonValue).bind fun j => .ok (.json j)
  | .cbor => ((v.toTaggedCbor toF64 collect tagOf).mapErr .cborTag).bind fun c => .ok (.cbor c)

/-! ## Commands -/

/-- `Command` and `Convert`. `src/main.rs` L55-139. -/
inductive Command where
  | hydrate (input : RdfFormat) (output : TreeFormat) (layout : Option Term) (subjects : List Term)
  | dehydrate (input : TreeFormat) (output : RdfFormat) (layout : Option Term)
  | convertTree (input output : TreeFormat)
  | convertRdf (input output : RdfFormat)

/-- What the commands need besides `CommandEnv`: floating point numbers, and the maps of `serde_cbor`. -/
structure FormatEnv (F : Type) extends CommandEnv where
  toF64 : Rat → F
  ofF64 : F → Option Rat
  collect : List (Cbor F × Cbor F) → List (Cbor F × Cbor F)

/-- The loading of the layouts by `run`. `src/main.rs` L191-207. -/
def loadFiles {R : Type} [DecidableEq R] (env : LoadEnv R) (args : CliArgs) : Out CliError (LayoutMap R × DefaultLayout R) :=
  (loadLayouts env args.layouts {} .none).bind fun r =>
  (loadIncludes env args.includes r.1).bind fun st => .ok (st.layouts, r.2)

/-- The registry given to the command. `src/main.rs` L209. -/
def FormatEnv.registry (env : FormatEnv F) (args : CliArgs) (layouts : LayoutMap Term) : Registry Term :=
  Registry.including layouts.registry (Registry.optional (if args.noPrelude then none else some env.prelude))

/-- The extra properties of the layouts of this registry: those of the prelude have none. -/
def FormatEnv.extra (env : FormatEnv F) (args : CliArgs) (layouts : LayoutMap Term) (r : Term) : Option (List (Term × Term)) :=
  ((layouts.lookup r).map Prod.snd).or
    ((Registry.optional (if args.noPrelude then none else some env.prelude) r).map fun _ => [])

/-- The literals that a term stands for. -/
def Term.literals : Term → List RdfLit
  | .literal l => [l]
  | _ => []

/-- `get_layout_tag` with terms as resources. `layouts/src/value/cbor/serde_cbor.rs` L12-22. -/
def FormatEnv.tagOf (env : FormatEnv F) (args : CliArgs) (layouts : LayoutMap Term) : Term → Out InvalidTag (Option Nat) :=
  getLayoutTag (env.extra args layouts) (fun i => some (.iri i)) Term.literals

/-- `Convert::run`. `src/main.rs` L264-284. -/
def runConvertTree (env : FormatEnv F) (i o : TreeFormat) (input : Input F) : Out CliError (Printed F) :=
  (i.load env.ofF64 input).bind fun v => o.writeUntyped env.toF64 v

/-- `Command::run`. `src/main.rs` L217-284. -/
def Command.run (env : FormatEnv F) (args : CliArgs) (layouts : LayoutMap Term) (d : DefaultLayout Term) (input : Input F) :
    Command → Out CliError (Printed F)
  | .hydrate i o layout subjects =>
    (d.get layout).bind fun ref =>
    (i.load input).bind fun ds =>
    ((Hydrate.hydrate (HyCtx.ofTerms (env.registry args layouts) env.xsd env.le ds) env.depth none ref subjects).mapErr
      .hydrate).bind fun v =>
    o.writeTyped env.toF64 env.collect (env.tagOf args layouts) v
  | .dehydrate i o layout =>
    (d.get layout).bind fun ref =>
    (i.load env.ofF64 input).bind fun v =>
    ((Dehydrate.dehydrate ⟨env.registry args layouts, env.isIri, env.xsd⟩ env.depth v ref env.options).mapErr
      .dehydrate).bind fun r =>
    .ok (o.write r.1)
  | .convertTree i o => runConvertTree env i o input
  | .convertRdf i o => (i.load input).bind fun ds => .ok (o.write ds)

/-- `run`. `src/main.rs` L191-214. -/
def runCli (env : FormatEnv F) (args : CliArgs) (command : Option Command) (input : Input F) :
    Out CliError (Option (Printed F)) :=
  (loadFiles env.load args).bind fun p =>
  match command with
  | none => .ok none
  | some c => (c.run env args p.1 p.2 input).bind fun o => .ok (some o)

end Verif
