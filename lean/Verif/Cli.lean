import Verif.Registry
import Verif.SyntaxParse
import Verif.Json
import Verif.Cbor

/-!
# The command line tool

Models `src/main.rs` and `src/format/tree.rs`: the layout files are loaded in order, the default layout is chosen, and the
command is run with the loaded layouts, and those of the prelude.

Not modelled: the command line parser, the texts of the files (a file is given by its JSON document, if it has one), N-Quads
syntax (the input is given by the dataset it stands for, if any), the standard output, and diagnostics. `Verif/CliFormats.lean`
has the commands with all formats.
-/

set_option linter.unusedSectionVars false
set_option linter.unusedSimpArgs false

namespace Verif

/-- What reading a layout file gives. `src/main.rs` L197, L368. -/
inductive SourceFile where
  | unreadable
  | notJson
  | json (j : Json)

/-- `Error`. `src/main.rs` L286-303. Errors about a layout file carry its number. -/
inductive CliError where
  | io
  | jsonSyntax (file : Nat)
  | layoutSyntax (file : Nat) (e : SyntaxError)
  | layoutBuild (file : Nat) (e : BuildError)
  | noDefaultLayout
  | ambiguousDefaultLayout
  | loadRdf
  | loadTree
  | hydrate (e : HyError Term)
  | dehydrate (e : DeError)
  | nonJsonValue (e : NonJsonValue)
  | cborTag (e : InvalidTag)

/-- What loading a layout file needs: the libraries, and how layouts are built (see `AbsLayout.build`). -/
structure LoadEnv (R : Type) where
  parse : ParseLib
  ctx : BuildCtx R
  debug : Bool
  fuel : Nat

/-- `Layouts<R>`: a map from identifiers to layouts, with their extra properties. `layouts/src/lib.rs` L232-235. -/
abbrev LayoutMap (R : Type) := List (R × Layout R × List (R × R))

/-- `Layouts::get`. `layouts/src/lib.rs` L263-268, L300-304. -/
def LayoutMap.registry {R : Type} [DecidableEq R] (m : LayoutMap R) : Registry R := fun r => (m.lookup r).map Prod.fst

/-- The local variables of `run` when a file is loaded: `layouts`, the state of `generator`, the number of `files`.
`src/main.rs` L191-206. -/
structure CliState (R : Type) where
  layouts : LayoutMap R := []
  next : Nat := 0
  files : Nat := 0

/-- `DefaultLayoutRef`. `src/main.rs` L164-168. -/
inductive DefaultLayout (R : Type) where
  | none
  | some (r : R)
  | ambiguous

namespace DefaultLayout

variable {R : Type}

/-- `set`. `src/main.rs` L171-177. -/
def set (r : R) : DefaultLayout R → DefaultLayout R
  | none => some r
  | some _ => ambiguous
  | ambiguous => ambiguous

/-- `get`. `src/main.rs` L179-188. -/
def get (preferred : Option R) (d : DefaultLayout R) : Out CliError R :=
  match preferred with
  | .some r => .ok r
  | .none =>
    match d with
    | none => .err .noDefaultLayout
    | some r => .ok r
    | ambiguous => .err .ambiguousDefaultLayout

end DefaultLayout

variable {R : Type} [DecidableEq R]

/-- The insertion of the layouts of a file. `src/main.rs` L375-383: each is inserted before the check. -/
def insertLayouts (le : R → R → Bool) : LayoutMap R → LayoutMap R → Out BuildError (LayoutMap R)
  | [], m => .ok m
  | (r, l) :: new, m =>
    let m' := bmapInsert le r l m
    if (m.lookup r).isSome then .err .layoutRedefinition else insertLayouts le new m'

/-- Outcomes of functions that return no error. -/
def Out.ofTotal {ε α : Type} : Out Empty α → Out ε α
  | .ok a => .ok a
  | .err e => nomatch e
  | .panic => .panic
  | .fuel => .fuel

/-- What a document defines: the identifier of its layout, all its layouts, and the next state of the generator. The builder is
new, the generator is shared. `src/main.rs` L365-373. -/
def loadDocument (env : LoadEnv R) (file next : Nat) (j : Json) : Out CliError (R × LayoutMap R × Nat) :=
  ((parseLayout env.parse j).mapErr (.layoutSyntax file)).bind fun l =>
  match l.buildWithContext env.ctx ⟨[], next⟩ with
  | (.ok r, b) => (Out.ofTotal (buildAll env.debug env.fuel b.layouts)).bind fun ls => .ok (r, ls, b.next)
  | (.err e, _) => .err (.layoutBuild file e)
  | (.panic, _) => .panic
  | (.fuel, _) => .fuel

/-- `read_to_string`, `files.add`, `load_layout`. `src/main.rs` L197-199, L357-394. -/
def loadLayout (env : LoadEnv R) (st : CliState R) : SourceFile → Out CliError (R × CliState R)
  | .unreadable => .err .io
  | .notJson => .err (.jsonSyntax st.files)
  | .json j =>
    (loadDocument env st.files st.next j).bind fun d =>
    ((insertLayouts env.ctx.le d.2.1 st.layouts).mapErr (.layoutBuild st.files)).bind fun m =>
    .ok (d.1, ⟨m, d.2.2, st.files + 1⟩)

/-- The loop over the layout files. `src/main.rs` L196-201. -/
def loadLayouts (env : LoadEnv R) : List SourceFile → CliState R → DefaultLayout R → Out CliError (CliState R × DefaultLayout R)
  | [], st, d => .ok (st, d)
  | f :: fs, st, d => (loadLayout env st f).bind fun r => loadLayouts env fs r.2 (d.set r.1)

/-- The loop over the included files. `src/main.rs` L203-207. -/
def loadIncludes (env : LoadEnv R) : List SourceFile → CliState R → Out CliError (CliState R)
  | [], st => .ok st
  | f :: fs, st => (loadLayout env st f).bind fun r => loadIncludes env fs r.2

/-- `Args`. `src/main.rs` L23-43. -/
structure CliArgs where
  layouts : List SourceFile
  includes : List SourceFile
  noPrelude : Bool

/-- `run`, up to the command: the registry and the default layout given to it. `src/main.rs` L191-209. -/
def prepare (env : LoadEnv R) (prelude : Registry R) (args : CliArgs) : Out CliError (Registry R × DefaultLayout R) :=
  (loadLayouts env args.layouts {} .none).bind fun r =>
  (loadIncludes env args.includes r.1).bind fun st =>
  .ok (Registry.including st.layouts.registry (Registry.optional (if args.noPrelude then none else some prelude)), r.2)

/-! ## Commands -/

/-- What the commands need: see `HyCtx`, `DeCtx`, `DeOptions`. -/
structure CommandEnv where
  load : LoadEnv Term
  prelude : Registry Term
  xsd : Xsd
  isIri : String → Bool
  le : TypedValue Term → TypedValue Term → Bool
  options : Dehydrate.DeOptions
  depth : Nat

/-- `tldr hydrate`, with JSON output. `src/main.rs` L224-240, `src/format/tree.rs` L74-93. The input is the dataset, if it could be
read. -/
def hydrateCommand (env : CommandEnv) (args : CliArgs) (layout : Option Term) (subjects : List Term)
    (input : Option (List (Quad Term))) : Out CliError Json :=
  (prepare env.load env.prelude args).bind fun p =>
  (p.2.get layout).bind fun ref =>
  match input with
  | none => .err .loadRdf
  | some ds =>
    ((Hydrate.hydrate (HyCtx.ofTerms p.1 env.xsd env.le ds) env.depth none ref subjects).mapErr .hydrate).bind fun v =>
    v.untype.toJson.mapErr .nonJsonValue

/-- `tldr dehydrate`, with JSON input. `src/main.rs` L241-257, `src/format/tree.rs` L61-72. The input is the JSON document, if it
could be parsed. -/
def dehydrateCommand (env : CommandEnv) (args : CliArgs) (layout : Option Term) (input : Option Json) :
    Out CliError (List (Quad Term)) :=
  (prepare env.load env.prelude args).bind fun p =>
  (p.2.get layout).bind fun ref =>
  match input with
  | none => .err .loadTree
  | some j =>
    (Out.ofTotal j.toValue).bind fun v =>
    ((Dehydrate.dehydrate ⟨p.1, env.isIri, env.xsd⟩ env.depth v ref env.options).mapErr .dehydrate).bind fun r =>
    .ok r.1

end Verif
