import Verif.Matching
import Verif.Layout

/-!
# Hydration: RDF dataset → tree

Models `layouts/src/distill/hy/mod.rs` and `layouts/src/distill/hy/data.rs`.

`hydrate_with_ref` is recursive through the layout registry, so it need not terminate; the model has a bound on the
recursion depth (and on the length of ordered lists), and reports `Out.fuel` when the bound is reached.
-/

namespace Verif

/-- `DataFragment<R>`. `layouts/src/distill/hy/mod.rs` L50-77. -/
inductive DataFragment (R : Type _) where
  | discriminant (layout : R)
  | variant (layout : R) (name : String)
  | key (layout : R) (key : Value)
  | orderedListNode (layout head tail : R)
  | sizedListItem (layout : R) (index : Nat)
  deriving DecidableEq, Repr

/-- `hy::Error<R>`. `layouts/src/distill/hy/mod.rs` L24-46. -/
inductive HyError (R : Type _) where
  | incompatibleLayout
  | invalidInputCount (expected found : Nat)
  | dataAmbiguity (f : DataFragment R)
  | missingData (f : DataFragment R)
  | unknownNumberDatatype (iri : String)
  | noMatchingLiteral
  | layoutNotFound (layout : R)
  deriving DecidableEq, Repr

/-- Everything hydration reads: layouts, interpretation of resources, dataset, and the order on typed values used to
sort unordered lists (`derive(Ord)`). The vocabulary is total: every IRI and literal has its text. -/
structure HyCtx (R : Type _) where
  reg : Registry R
  irisOf : R → List String
  literalsOf : R → List RdfLit
  xsd : Xsd
  ds : List (Quad R)
  le : TypedValue R → TypedValue R → Bool

/-- `Error::from_matching_error`. `layouts/src/distill/hy/mod.rs` L80-85. -/
def HyError.ofMatching {R} (f : DataFragment R) : Matching.Error → HyError R
  | .ambiguity => .dataAmbiguity f
  | .empty => .missingData f

namespace Hydrate

variable {R : Type _} [DecidableEq R]

/-- `Matching::new(dataset, substitution, patterns.with_default_graph(graph)).into_required_unique()
.for_fragment(..)`, e.g. `layouts/src/distill/hy/mod.rs` L249-255. -/
def requiredMatch (c : HyCtx R) (frag : DataFragment R) (σ : Subst R) (pats : List (QuadPat R))
    (graph : Option R) : Out (HyError R) (Subst R) :=
  (Matching.intoRequiredUnique c.ds (Matching.new σ (withDefaultGraph pats graph))).mapErr (HyError.ofMatching frag)

/-- `Matching::new(..).into_unique().for_fragment(..)`, e.g. `layouts/src/distill/hy/mod.rs` L341-350. -/
def uniqueMatch (c : HyCtx R) (frag : DataFragment R) (σ : Subst R) (pats : List (QuadPat R))
    (graph : Option R) : Out (HyError R) (Option (Subst R)) :=
  (Matching.intoUnique c.ds (Matching.new σ (withDefaultGraph pats graph))).mapErr (HyError.ofMatching frag)

/-- `pattern.apply(&substitution).into_resource().unwrap()`, e.g. `layouts/src/distill/hy/mod.rs` L216-220. -/
def resource (pat : Pattern R) (σ : Subst R) : Out (HyError R) R := Out.ofOption (pat.value σ)

/-- `select_inputs`. `layouts/src/distill/hy/mod.rs` L556-561. -/
def selectInputs (inputs : List (Pattern R)) (σ : Subst R) : Out (HyError R) (List R) :=
  Out.mapM' (fun p => resource p σ) inputs

/-- `select_graph`. `layouts/src/distill/hy/mod.rs` L563-575. -/
def selectGraph (current : Option R) (pat : Option (Option (Pattern R))) (σ : Subst R) :
    Out (HyError R) (Option R) :=
  match pat with
  | none => .ok current
  | some none => .ok none
  | some (some p) => (resource p σ).map some

/-- The loop over the literals of a resource, shared by the four data layouts.
`layouts/src/distill/hy/data.rs` L69-92, L112-135, L155-178, L198-221: language strings are a `todo!()`, a literal of
the right datatype is parsed, a second one is a `todo!()`. -/
def scanLiterals {α} (parse : String → String → Out (HyError R) α) (datatypes : List String) :
    List RdfLit → Option α → Out (HyError R) (Option α)
  | [], value => .ok value
  | l :: ls, value =>
    match l.type with
    | .langString _ => .panic
    | .any i =>
      if datatypes.any (fun j => i == j) then
        (parse l.value i).bind fun v =>
          match value with
          | some _ => .panic
          | none => scanLiterals parse datatypes ls (some v)
      else
        scanLiterals parse datatypes ls value

/-- `hydrate_boolean_value`. `layouts/src/distill/hy/data.rs` L226-235. -/
def booleanValue (c : HyCtx R) (value type : String) : Out (HyError R) Bool :=
  if type = c.xsd.boolean then Out.ofOption (c.xsd.parseBoolean value) else .panic

/-- `hydrate_number_value`. `layouts/src/distill/hy/data.rs` L237-250. -/
def numberValue (c : HyCtx R) (value type : String) : Out (HyError R) Rat :=
  if c.xsd.isDecimal type then Out.ofOption (c.xsd.parseDecimal value) else .err (.unknownNumberDatatype type)

/-- `hydrate_byte_string_value`: not implemented in the code. `layouts/src/distill/hy/data.rs` L252-254. -/
def byteStringValue (_value _type : String) : Out (HyError R) (List UInt8) := .panic

/-- `hydrate_text_string_value`. `layouts/src/distill/hy/data.rs` L256-258. -/
def textStringValue (value _type : String) : Out (HyError R) String := .ok value

/-- The common body of the boolean, number, byte string and text string layouts.
`layouts/src/distill/hy/data.rs` L51-222. -/
def hydrateData {α} (c : HyCtx R) (graph : Option R) (ref : R) (l : DataLayout R) (inputs : List R)
    (parse : String → String → Out (HyError R) α) (mk : α → TypedLiteral R) : Out (HyError R) (TypedLiteral R) :=
  (requiredMatch c (.discriminant ref) ((Subst.fromInputs inputs).intro l.intro) l.dataset graph).bind fun σ =>
  (resource l.resource σ).bind fun r =>
  (scanLiterals parse (c.irisOf l.datatype) (c.literalsOf r) none).bind fun
    | some v => .ok (mk v)
    | none => .err .noMatchingLiteral

/-- The identifier layout. `layouts/src/distill/hy/mod.rs` L205-243. Several IRIs, or none, is a `todo!()`. -/
def hydrateId (c : HyCtx R) (graph : Option R) (ref : R) (l : IdLayout R) (inputs : List R) :
    Out (HyError R) (TypedLiteral R) :=
  (requiredMatch c (.discriminant ref) ((Subst.fromInputs inputs).intro l.intro) l.dataset graph).bind fun σ =>
  (resource l.resource σ).bind fun r =>
    match c.irisOf r with
    | [iri] => .ok (.id iri ref)
    | _ => .panic

/-- The recursive call: graph, layout reference, inputs. -/
abbrev Rec (R : Type _) := Option R → R → List R → Out (HyError R) (TypedValue R)

/-- The code following a match everywhere: select the inputs and graph of the sub-value, and hydrate it.
E.g. `layouts/src/distill/hy/mod.rs` L354-367. -/
def subValue (rec : Rec R) (graph : Option R) (fmt : ValueFormat R) (σ : Subst R) :
    Out (HyError R) (TypedValue R) :=
  (selectInputs fmt.input σ).bind fun ins =>
  (selectGraph graph fmt.graph σ).bind fun g =>
    rec g fmt.layout ins

/-- The loop over the variants of a sum. `layouts/src/distill/hy/mod.rs` L260-321. The match of a variant is computed
from `substitution`, not from `variant_substitution` (L264-268): the variant's own variables are not declared. -/
def variants (c : HyCtx R) (rec : Rec R) (graph : Option R) (ref : R) (σ : Subst R) :
    Nat → List (Variant R) → Option (Nat × TypedValue R) → Out (HyError R) (TypedValue R)
  | _, [], some (j, v) => .ok (.variant v ref j)
  | _, [], none => .panic
  | i, variant :: rest, selected =>
    (uniqueMatch c (.variant ref variant.name) σ variant.dataset graph).bind fun
      | none => variants c rec graph ref σ (i + 1) rest selected
      | some σ' =>
        match subValue rec graph variant.value σ' with
        | .ok v =>
          match selected with
          | some _ => .panic
          | none => variants c rec graph ref σ (i + 1) rest (some (i, v))
        | .err _ => variants c rec graph ref σ (i + 1) rest selected
        | .panic => .panic
        | .fuel => .fuel

/-- The loop over the fields of a product. `layouts/src/distill/hy/mod.rs` L337-380. `BTreeMap::insert` of increasing
keys appends. -/
def fields (c : HyCtx R) (rec : Rec R) (graph : Option R) (ref : R) (σ : Subst R) :
    List (Value × Field R) → Out (HyError R) (List (Value × TypedValue R))
  | [] => .ok []
  | (key, field) :: rest =>
    (uniqueMatch c (.key ref key) (σ.intro field.intro) field.dataset graph).bind fun
      | some σ' =>
        (subValue rec graph field.value σ').bind fun v =>
        (fields c rec graph ref σ rest).bind fun r => .ok ((key, v) :: r)
      | none =>
        if field.required then .err (.missingData (.key ref key))
        else fields c rec graph ref σ rest

/-- The loop over the nodes of an ordered list. `layouts/src/distill/hy/mod.rs` L455-498: it goes on until the tail is
reached, hence the bound `n`. -/
def nodes (c : HyCtx R) (rec : Rec R) (graph : Option R) (ref : R) (node : ItemLayout R) (σ : Subst R) (tail : R) :
    Nat → R → Out (HyError R) (List (TypedValue R))
  | n, head =>
    if head = tail then .ok []
    else
      match n with
      | 0 => .fuel
      | n + 1 =>
        (requiredMatch c (.orderedListNode ref head tail)
          ((Subst.push σ (some head)).intro (1 + node.intro)) node.dataset graph).bind fun σ' =>
        (subValue rec graph node.value σ').bind fun v =>
        (Out.ofOption (σ'.get (σ.length + 1))).bind fun head' =>
        (nodes c rec graph ref node σ tail n head').bind fun vs => .ok (v :: vs)

/-- The loop over the items of a sized list. `layouts/src/distill/hy/mod.rs` L516-546. -/
def sizedItems (c : HyCtx R) (rec : Rec R) (graph : Option R) (ref : R) (σ : Subst R) :
    Nat → List (ItemLayout R) → Out (HyError R) (List (TypedValue R))
  | _, [] => .ok []
  | i, item :: rest =>
    (requiredMatch c (.sizedListItem ref i) (σ.intro item.intro) item.dataset graph).bind fun σ' =>
    (subValue rec graph item.value σ').bind fun v =>
    (sizedItems c rec graph ref σ (i + 1) rest).bind fun vs => .ok (v :: vs)

/-- The loop over the matches of an unordered list's item pattern. `layouts/src/distill/hy/mod.rs` L399-432. The
iterator is consumed lazily: items are hydrated between two calls of `next`. -/
def unorderedItems (c : HyCtx R) (rec : Rec R) (graph : Option R) (fmt : ValueFormat R) :
    Nat → Matching.Stack R → Out (HyError R) (List (TypedValue R))
  | 0, _ => .fuel
  | n + 1, st =>
    (Matching.next c.ds st).bind fun
      | none => .ok []
      | some (σ, st') =>
        (subValue rec graph fmt σ).bind fun v =>
        (unorderedItems c rec graph fmt n st').bind fun vs => .ok (v :: vs)

/-- The `match layout` of `hydrate_with_ref`. `layouts/src/distill/hy/mod.rs` L188-553. -/
def layout (c : HyCtx R) (rec : Rec R) (n : Nat) (graph : Option R) (ref : R) (inputs : List R) :
    Layout R → Out (HyError R) (TypedValue R)
  | .never => .err .incompatibleLayout
  | .unit l =>
    (requiredMatch c (.discriminant ref) ((Subst.fromInputs inputs).intro l.intro) l.dataset graph).bind fun _ =>
      .ok (.literal (.unit l.const ref))
  | .boolean l => (hydrateData c graph ref l inputs (booleanValue c) (.boolean · ref)).map .literal
  | .number l => (hydrateData c graph ref l inputs (numberValue c) (.number · ref)).map .literal
  | .byteString l => (hydrateData c graph ref l inputs byteStringValue (.byteString · ref)).map .literal
  | .textString l =>
    (hydrateData c graph ref l.toDataLayout inputs textStringValue (.textString · ref)).map .literal
  | .id l => (hydrateId c graph ref l inputs).map .literal
  | .sum l =>
    (requiredMatch c (.discriminant ref) ((Subst.fromInputs inputs).intro l.intro) l.dataset graph).bind fun σ =>
      variants c rec graph ref σ 0 l.variants none
  | .product l =>
    (requiredMatch c (.discriminant ref) ((Subst.fromInputs inputs).intro l.intro) l.dataset graph).bind fun σ =>
    (fields c rec graph ref σ l.fields).bind fun record => .ok (.map record ref)
  | .unordered l =>
    (requiredMatch c (.discriminant ref) ((Subst.fromInputs inputs).intro l.intro) l.dataset graph).bind fun σ =>
      let st := Matching.new (σ.intro l.item.intro) (withDefaultGraph l.item.dataset graph)
      (unorderedItems c rec graph l.item.value (Matching.weight c.ds.length st + 1) st).bind fun items =>
        .ok (.list (sortBy c.le items) ref)
  | .ordered l =>
    (requiredMatch c (.discriminant ref) ((Subst.fromInputs inputs).intro l.intro) l.dataset graph).bind fun σ =>
    (resource l.head σ).bind fun head =>
    (resource l.tail σ).bind fun tail =>
    (nodes c rec graph ref l.node σ tail n head).bind fun items => .ok (.list items ref)
  | .sized l =>
    (requiredMatch c (.discriminant ref) ((Subst.fromInputs inputs).intro l.intro) l.dataset graph).bind fun σ =>
    (sizedItems c rec graph ref σ 0 l.items).bind fun items => .ok (.list items ref)
  | .always => .ok (.always .unit)

/-- `hydrate_with_ref`. `layouts/src/distill/hy/mod.rs` L159-554, with `n` bounding the depth of the recursion and
the length of ordered lists. -/
def hydrate (c : HyCtx R) : Nat → Rec R
  | 0, _, _, _ => .fuel
  | n + 1, graph, ref, inputs =>
    match c.reg ref with
    | none => .err (.layoutNotFound ref)
    | some l =>
      if l.inputCount.any (· ≠ inputs.length) then
        .err (.invalidInputCount (l.inputCount.getD 0) inputs.length)
      else
        layout c (hydrate c n) n graph ref inputs l

/-- The context of the simplified entry point `hydrate`, where a resource is a term (the `()` interpretation): an IRI is
interpreted as itself, and so is a literal. `layouts/src/distill/hy/mod.rs` L112-123. -/
def _root_.Verif.HyCtx.ofTerms (reg : Registry Term) (xsd : Xsd) (le : TypedValue Term → TypedValue Term → Bool)
    (ds : List (Quad Term)) : HyCtx Term where
  reg := reg
  irisOf
    | .iri i => [i]
    | _ => []
  literalsOf
    | .literal l => [l]
    | _ => []
  xsd := xsd
  ds := ds
  le := le

end Hydrate

end Verif
