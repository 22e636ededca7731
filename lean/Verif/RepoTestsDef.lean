import Verif.CliFormats
import Verif.SyntaxSerde
import Verif.RegExp
import Verif.RustEmit
import Verif.Prelude

/-!
# The test vectors of the repository

The tests and examples found in the repository, run on the model by the kernel (`Verif/RepoTests.lean`). These are tests of the model, not
properties: they check that definitions do what the tests of the code expect of it.

This file: the libraries (parameters of the model), made concrete, and the drivers. `layouts/tests/distill.rs`.
-/

set_option linter.unusedSectionVars false

namespace Verif.RepoTests

/-- Absolute IRIs contain a colon, blank node identifiers begin with `_:`, and small integers are unsigned bytes. -/
def lib : ParseLib where
  isIriRef s := !s.toList.contains ' '
  isIri s := s.toList.contains ':'
  resolve r b := b ++ r
  isBlankId s := s.toList.take 2 == ['_', ':']
  isLangTag s := !s.toList.contains ' '
  decimalType z := if 0 ≤ z ∧ z < 256 then "http://www.w3.org/2001/XMLSchema#unsignedByte"
    else "http://www.w3.org/2001/XMLSchema#integer"
  leIri a b := strLe a b

/-- Resources are terms. -/
def ctx : BuildCtx Term where
  lib := lib.toIriLib
  iri := .iri
  lit := .literal
  fresh n := .blank (toString n)
  le _ _ := false
  leQ _ _ := false

def load : LoadEnv Term := ⟨lib, ctx, false, 1000⟩

def xsdNs (s : String) : String := "http://www.w3.org/2001/XMLSchema#" ++ s

/-- The datatypes used by the tests. -/
def xsd : Xsd where
  boolean := xsdNs "boolean"
  isDecimal s := [xsdNs "decimal", xsdNs "integer", xsdNs "nonNegativeInteger"].contains s
  parseBoolean s := if s = "true" then some true else if s = "false" then some false else none
  printBoolean b := if b then "true" else "false"
  parseDecimal s := Number.parseXsdDecimal s.toList
  printDecimal q := (Number.decimalRepresentation q).map String.ofList

/-- The order of terms. -/
def code : Term → List Rat
  | .iri s => 0 :: encString s
  | .blank s => 1 :: encString s
  | .literal _ => [2]

/-! ## Isomorphism of datasets

`rdf_types::dataset::isomorphism::find_bijection`, for datasets without named graphs. -/

abbrev Renaming := List (String × String)

def bindBlank (m : Renaming) (a b : String) : Option Renaming :=
  match m.lookup a with
  | some b' => if b = b' then some m else none
  | none => if (m.map Prod.snd).contains b then none else some ((a, b) :: m)

def bindTerm (m : Renaming) : Term → Term → Option Renaming
  | .blank a, .blank b => bindBlank m a b
  | a, b => if a = b then some m else none

def bindQuad (m : Renaming) (a b : Quad Term) : Option Renaming :=
  if a.g = none ∧ b.g = none then
    (bindTerm m a.s b.s).bind fun m => (bindTerm m a.p b.p).bind fun m => bindTerm m a.o b.o
  else none

def renamings : Renaming → List (Quad Term) → List (Quad Term) → List Renaming
  | m, [], _ => [m]
  | m, a :: l, bs => bs.flatMap fun b => match bindQuad m a b with
    | some m => renamings m l bs
    | none => []

/-! ## Drivers -/

def hydrated (reg : Registry Term) (ref : Term) (dataset : List (Quad Term)) (subject : Term) : Out (HyError Term) Value :=
  (Hydrate.hydrate (HyCtx.ofTerms reg xsd (TypedValue.le code) dataset) 30 none ref [subject]).bind fun v => .ok v.untype

/-- The generator has been used `start` times already. -/
def dehydrated (reg : Registry Term) (ref : Term) (tree : Json) (inputs : Option Nat) (start : Nat) :
    Out DeError (List (Quad Term) × List Term) :=
  (Out.ofTotal tree.toValue).bind fun v =>
  Dehydrate.dehydrate ⟨reg, fun s => s.toList.contains ':', xsd⟩ 30 v ref
    ⟨inputs, fun i => .blank ("input" ++ toString i), fun i => .blank (toString (start + i)), id⟩

/-- `hydrate`. `layouts/tests/distill.rs` L45-76. -/
def hydrateTest (layout : Json) (dataset : List (Quad Term)) (subject : Term) (tree : Json) : Bool :=
  match loadDocument load 0 0 layout with
  | .ok d => (Serde.layout lib layout).isSome &&
    match hydrated (LayoutMap.registry d.2.1) d.1 dataset subject, tree.toValue with
    | .ok v, .ok w => v == w
    | _, _ => false
  | _ => false

/-- `dehydrate`. `layouts/tests/distill.rs` L78-127. -/
def dehydrateTest (layout : Json) (dataset : List (Quad Term)) (subject : Term) (tree : Json) : Bool :=
  match loadDocument load 0 0 layout with
  | .ok d => (Serde.layout lib layout).isSome &&
    match dehydrated (LayoutMap.registry d.2.1) d.1 tree (some 1) 0 with
    | .ok (ds, [s]) => ds.length == dataset.length && (renamings [] ds dataset).any fun m =>
        (ds.isEmpty && dataset.isEmpty) || (bindTerm m s subject).isSome
    | _ => false
  | _ => false

/-- `hydrate`, when it returns an error. -/
def hydrateFails (layout : Json) (dataset : List (Quad Term)) (subject : Term) : Bool :=
  match loadDocument load 0 0 layout with
  | .ok d =>
    match hydrated (LayoutMap.registry d.2.1) d.1 dataset subject with
    | .err _ => true
    | _ => false
  | _ => false

/-- `dehydrate`, when it returns an error. -/
def dehydrateFails (layout tree : Json) : Bool :=
  match loadDocument load 0 0 layout with
  | .ok d =>
    match dehydrated (LayoutMap.registry d.2.1) d.1 tree (some 1) 0 with
    | .err _ => true
    | _ => false
  | _ => false

end Verif.RepoTests
