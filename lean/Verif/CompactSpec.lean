import Verif.SyntaxSpec
import Verif.RoundTripSpec

/-!
# Compact layout definitions

Layout definitions that follow the usual pattern: one input; records whose fields are given by a property each, or by an identifier;
sets whose items are given by a property; RDF lists; plain literals; sums of literals of different types, and of records and constants
that state different triples. They may be nested, refer to each other, and use prefixes.
-/

namespace Verif

/-- The pattern is not a variable. -/
def SPattern.IsConst : SPattern → Prop
  | .var _ => False
  | _ => True

/-- One input, named `x`, no other variables; the dataset only states constant properties of the input. -/
structure LayoutHeader.Simple (h : LayoutHeader) (x : String) : Prop where
  input : h.input.asSlice = [x]
  intro : h.intro.asSlice = []
  dataset : ∀ q ∈ h.dataset, q.s = .var x ∧ q.p.IsConst ∧ q.o.IsConst ∧ q.g = none

/-- The same, with an empty dataset. -/
structure LayoutHeader.Bare (h : LayoutHeader) (x : String) : Prop where
  input : h.input.asSlice = [x]
  intro : h.intro.asSlice = []
  dataset : h.dataset = []

/-- The resource of a literal layout is left out, or is the variable `x`. -/
def OnInput (x : String) (r : Option SPattern) : Prop := ∀ p, r = some p → p = .var x

/-- The value is the variable `y`, in the current graph. -/
def SFormat.IsVar (f : SFormat) (y : String) : Prop := f.inputs "value" = [.var y] ∧ f.graph = none

/-- The field is given by the property `p`: `{ "value": …, "property": p }`. -/
def SField.IsLink (p : CompactIri) : SField → Prop
  | .mk intro value ds property _ => ∃ y, intro.asSlice = [y] ∧ value.IsVar y ∧ ds = [] ∧ property = some (.iri p)

/-- The item is given by the property `p`. -/
def SItem.IsLink (p : CompactIri) : SItem → Prop
  | .mk intro value ds property => ∃ y, intro.asSlice = [y] ∧ value.IsVar y ∧ ds = [] ∧ property = some (.iri p)

/-- The field describes the record `x` itself, and is required. -/
def SField.OnSelf (x : String) : SField → Prop
  | .mk intro value ds property required => intro.asSlice = [] ∧ value.IsVar x ∧ ds = [] ∧ property = none ∧ required = true

/-- The list node uses `rdf:first` and `rdf:rest`. -/
def SNode.IsCons : SNode → Prop
  | .node _ _ intro value ds => ∃ y, intro.asSlice = [y] ∧ value.IsVar y ∧ ds = none
  | .layout _ => True

/-- An identifier. -/
def SLayout.IsId : SLayout → Prop
  | .id h _ r => ∃ x, h.Bare x ∧ OnInput x r
  | _ => False

/-- A set, whose items are given by the property `p`. -/
def SLayout.IsSet (l : SLayout) (p : CompactIri) : Prop := ∃ h item x, l = .unordered h item ∧ h.Bare x ∧ item.IsLink p

/-- The field gives the identifier of the record `x`. -/
def SField.GivesId (x : String) (f : SField) : Prop := f.OnSelf x ∧ ∃ l, f.ref = .layout l ∧ l.IsId

/-- The field is a set of values of the property `p` of the record `x`. -/
def SField.GivesSet (x : String) (l : SLayout) (p : CompactIri) (f : SField) : Prop := f.OnSelf x ∧ f.ref = .layout l ∧ l.IsSet p

/-- In the environment `env`, the field of the record `x` uses the property with the IRI `i`. -/
def SField.Property (lib : IriLib) (env : LexEnv) (x : String) (f : SField) (i : String) : Prop :=
  (∃ p, f.IsLink p ∧ Expands lib env p i) ∨
  ∃ l p h env', f.GivesSet x l p ∧ l.header = some h ∧ Opens lib env.nested h env' ∧ Expands lib env' p i

/-- The variant is given by its layout alone, about the same resource `x`. -/
def SVariant.IsPlain (x : String) : SVariant → Prop
  | .mk intro value ds => intro.asSlice = [] ∧ value.inputs "self" = [.var x] ∧ value.graph = none ∧ ds = []

/-- In the environment `env`, the definition is the one of literals of type `i`. -/
inductive SLayout.HasType (lib : IriLib) (env : LexEnv) : SLayout → String → Prop
  | boolean {h r} : HasType lib env (.boolean h r none) "http://www.w3.org/2001/XMLSchema#boolean"
  | number {h r dt env' i} : Opens lib env h env' → Expands lib env' dt i → HasType lib env (.number h r dt) i
  | string {h p r} : HasType lib env (.textString h p r none) "http://www.w3.org/2001/XMLSchema#string"
  | typed {h p r dt env' i} : Opens lib env h env' → Expands lib env' dt i → HasType lib env (.textString h p r (some dt)) i

/-- In the environment `env`, the definition states that what it describes has the value `o` for the property `p`. -/
def SLayout.States (lib : IriLib) (env : LexEnv) (l : SLayout) (p o : String) : Prop :=
  ∃ h env', l.header = some h ∧ Opens lib env h env' ∧ ∃ q ∈ h.dataset, ∃ p' o', q.p = .iri p' ∧ Expands lib env' p' p ∧
    q.o = .iri o' ∧ Expands lib env' o' o

/-- In the environment `env`, the definition is the one of a record, and a field uses the property `p`. -/
def SLayout.HasProperty (lib : IriLib) (env : LexEnv) (l : SLayout) (p : String) : Prop :=
  ∃ h fields x env', l = .product h fields ∧ h.Simple x ∧ Opens lib env h env' ∧ ∃ f ∈ fields, f.2.Property lib env' x p

/-- What is written for `l` is not read as `l'`: it has no literal of this type, or a triple that `l'` states is missing. -/
inductive SLayout.Apart (lib : IriLib) (env : LexEnv) (l l' : SLayout) : Prop
  | type (i : String) : l'.HasType lib env i → ¬ l.HasType lib env i → Apart lib env l l'
  | triple (p o : String) : l'.States lib env p o → ¬ l.States lib env p o → ¬ l.HasProperty lib env p → Apart lib env l l'

/-- Literals, records, and constants. -/
def SLayout.IsVariant : SLayout → Prop
  | .unit _ _ => True
  | .boolean _ _ _ => True
  | .number _ _ _ => True
  | .textString _ _ _ _ => True
  | .product _ _ => True
  | _ => False

/-- A compact layout definition, in the environment `env`. -/
def SLayout.Compact (lib : IriLib) (xsd : Xsd) (env : LexEnv) : SLayout → Prop
  | .unit h _ => ∃ x, h.Simple x
  | .boolean h r dt => ∃ x, h.Bare x ∧ OnInput x r ∧ dt = none
  | .number h r dt => ∃ x, h.Bare x ∧ OnInput x r ∧
      ∀ env' i, Opens lib env h env' → Expands lib env' dt i → xsd.isDecimal i = true
  | .textString h _ r _ => ∃ x, h.Bare x ∧ OnInput x r
  | .id h p r => (SLayout.id h p r).IsId
  | .unordered h item => ∃ p, (SLayout.unordered h item).IsSet p
  | .ordered h node head tail => ∃ x t, h.Bare x ∧ node.IsCons ∧ head = .var x ∧ tail = .iri t
  | .sized h items => ∃ x, h.Simple x ∧ (∀ i ∈ items, ∃ p, i.IsLink p) ∧
      ∀ env', Opens lib env h env' →
        (items.Pairwise fun a b => ∀ p p' i, a.IsLink p → b.IsLink p' → Expands lib env' p i → ¬ Expands lib env' p' i) ∧
        ∀ a ∈ items, ∀ p i, a.IsLink p → Expands lib env' p i → ∀ q ∈ h.dataset, ∀ p', q.p = .iri p' → ¬ Expands lib env' p' i
  | .product h fields => ∃ x, h.Simple x ∧
      (∀ f ∈ fields, (∃ p, f.2.IsLink p) ∨ f.2.GivesId x ∨ ∃ l p, f.2.GivesSet x l p) ∧
      (fields.Pairwise fun a b => a.2.GivesId x → ¬ b.2.GivesId x) ∧
      ∀ env', Opens lib env h env' →
        (fields.Pairwise fun a b => ∀ i, a.2.Property lib env' x i → ¬ b.2.Property lib env' x i) ∧
        ∀ a ∈ fields, ∀ i, a.2.Property lib env' x i → ∀ q ∈ h.dataset, ∀ p', q.p = .iri p' → ¬ Expands lib env' p' i
  | .sum h variants => ∃ x, h.Bare x ∧ (∀ v ∈ variants, v.2.IsPlain x ∧ ∃ l, v.2.ref = .layout l ∧ l.IsVariant) ∧
      ∀ env', Opens lib env h env' → variants.Pairwise fun a b => ∀ l l', a.2.ref = .layout l → b.2.ref = .layout l' →
        l.Apart lib env'.nested l' ∧ l'.Apart lib env'.nested l
  | _ => False

/-- The fields of a record are in the order of their names, without duplicates, as in a `BTreeMap`. -/
def SLayout.SortedFields : SLayout → Prop
  | .product _ fields => SortedKeys fields
  | _ => True

/-- Compact definitions, compiled. -/
structure CompactSet (c : BuildCtx Term) (xsd : Xsd) (defs : List SLayout) (reg : Registry Term) : Prop where
  terms : c.OverTerms
  order : TotalOrder c.leQ
  boolean : xsd.boolean = "http://www.w3.org/2001/XMLSchema#boolean"
  compact : ∀ l ∈ defs, ∀ l' env, SubDef c.lib LexEnv.empty l env l' → l'.Compact c.lib xsd env
  sorted : ∀ l ∈ defs, ∀ l' env, SubDef c.lib LexEnv.empty l env l' → l'.SortedFields
  built : ∃ (b : Builder Term) (debug : Bool) (fuel : Nat) (ls : List (Term × Layout Term × List (Term × Term))),
    b.Compiled c defs ∧ buildAll debug fuel b.layouts = .ok ls ∧ reg = Builder.registry ls

end Verif
