import Verif.Syntax
import Verif.LayoutSpec
import Verif.HydrateSpec

/-!
# What a layout definition means

A declarative reading of layout definitions, independent of scopes, counters and of the order of compilation: the variables
in scope are the sequence of declared names, a name denotes its last declaration, compact IRIs are expanded with the
prefixes and base IRI in force.
-/

set_option linter.unusedSectionVars false

namespace Verif

/-- In the sequence of declarations `names`, the name `x` denotes the variable `i`: the last declaration of `x`. -/
def NameDenotes (names : List String) (x : String) (i : Nat) : Prop :=
  names[i]? = some x ∧ ∀ j, i < j → names[j]? ≠ some x

/-- What is in force at some place of a layout definition. -/
structure LexEnv where
  base : Option String
  prefixes : String → Option String
  /-- the declared variables, in order -/
  names : List String

/-- The environment of a definition that is not nested in another one. -/
def LexEnv.empty : LexEnv := ⟨none, fun _ => none, []⟩

/-- Adds declarations. -/
def LexEnv.declare (env : LexEnv) (names : List String) : LexEnv := { env with names := env.names ++ names }

/-- Forgets the declared variables. -/
def LexEnv.nested (env : LexEnv) : LexEnv := { env with names := [] }

/-- The compact IRI `i` stands for `r`. -/
inductive Expands (lib : IriLib) (env : LexEnv) (i : CompactIri) : String → Prop
  /-- an absolute IRI whose scheme is not a prefix stands for itself -/
  | absolute : lib.isIri i = true → env.prefixes (iriScheme i) = none → Expands lib env i i
  /-- a prefixed IRI -/
  | prefixed (p) : lib.isIri i = true → env.prefixes (iriScheme i) = some p → lib.isIri (p ++ iriSuffix i) = true →
      Expands lib env i (p ++ iriSuffix i)
  /-- a relative reference -/
  | relative (b) : lib.isIri i = false → env.base = some b → Expands lib env i (lib.resolve i b)

variable {R : Type}

/-- The type of a literal. -/
def SLitType.Means (lib : IriLib) (env : LexEnv) : SLitType → LitType → Prop
  | .iri i, ty => ∃ r, Expands lib env i r ∧ ty = .any r
  | .language tag, ty => ty = .langString tag

/-- The meaning of a pattern. -/
def SPattern.Means (c : BuildCtx R) (env : LexEnv) : SPattern → Pattern R → Prop
  | .var x, p => ∃ i, NameDenotes env.names x i ∧ p = .var i
  | .iri i, p => ∃ r, Expands c.lib env i r ∧ p = .res (c.iri r)
  | .literal v ty, p => ∃ ty', ty.Means c.lib env ty' ∧ p = .res (c.lit ⟨v, ty'⟩)

/-- The meaning of a quad. -/
def QuadMeans (c : BuildCtx R) (env : LexEnv) (q : Quad SPattern) (q' : QuadPat R) : Prop :=
  q.s.Means c env q'.s ∧ q.p.Means c env q'.p ∧ q.o.Means c env q'.o ∧ Option.Rel (SPattern.Means c env) q.g q'.g

/-- The meaning of a dataset: a set with the meaning of each quad, and nothing else. There is no repetition (if quads are compared
properly). -/
def DatasetMeans (c : BuildCtx R) (env : LexEnv) (ds : List (Quad SPattern)) (ds' : List (QuadPat R)) : Prop :=
  (∀ q ∈ ds, ∃ q' ∈ ds', QuadMeans c env q q') ∧ (∀ q' ∈ ds', ∃ q ∈ ds, QuadMeans c env q q') ∧ (TotalOrder c.leQ → ds'.Nodup)

/-- The meaning of the dataset and `property` of a field or item: the `property` adds the quad from the first declared
variable `subject` to the variable `object`. -/
def PropDatasetMeans (c : BuildCtx R) (env : LexEnv) (object : Nat) (ds : List (Quad SPattern)) (property : Option SPattern)
    (ds' : List (QuadPat R)) : Prop :=
  match property with
  | none => DatasetMeans c env ds ds'
  | some p => ∃ p' ds₀, p.Means c env p' ∧ DatasetMeans c env ds ds₀ ∧
      (∀ q, q ∈ ds' ↔ q ∈ ds₀ ∨ q = ⟨.var 0, p', .var object, none⟩) ∧ (TotalOrder c.leQ → ds'.Nodup)

/-- The environment of a layout with the header `h`: its base IRI and prefixes are expanded in the enclosing environment;
its inputs, then its introduced variables, are declared. -/
structure Opens (lib : IriLib) (env : LexEnv) (h : LayoutHeader) (env' : LexEnv) : Prop where
  base : match h.base with
    | none => env'.base = env.base
    | some b => ∃ i, Expands lib env b i ∧ env'.base = some i
  /-- a declared prefix: the last declaration counts -/
  prefixed : ∀ ps x p qs, h.prefixes = ps ++ (x, p) :: qs → x ∉ qs.map Prod.fst →
    ∃ i, Expands lib env p i ∧ env'.prefixes x = some i
  /-- other prefixes are inherited -/
  inherited : ∀ x, x ∉ h.prefixes.map Prod.fst → env'.prefixes x = env.prefixes x
  names : env'.names = env.names ++ h.input.asSlice ++ h.intro.asSlice

/-- The meaning of a resource. -/
def SResource.Means (c : BuildCtx R) (env : LexEnv) : SResource → R → Prop
  | .boolean b, r => r = c.lit ⟨if b then "true" else "false", .any "http://www.w3.org/2001/XMLSchema#boolean"⟩
  | .number n, r => r = c.lit ⟨toString n, .any (c.lib.decimalType n)⟩
  | .string s, r => r = c.lit ⟨s, .any "http://www.w3.org/2001/XMLSchema#string"⟩
  | .typed v ty, r => ∃ i, Expands c.lib env ty i ∧ r = c.lit ⟨v, .any i⟩

/-- The meaning of extra properties. -/
def ExtraMeans (c : BuildCtx R) (env : LexEnv) (es : List (CompactIri × SResource)) (es' : List (R × R)) : Prop :=
  (∀ e ∈ es, ∃ i v, Expands c.lib env e.1 i ∧ (c.iri i, v) ∈ es') ∧
    ∀ e' ∈ es', ∃ e ∈ es, ∃ i, Expands c.lib env e.1 i ∧ e'.1 = c.iri i ∧ e.2.Means c env e'.2

/-- The meaning of a header. -/
structure HeaderMeans (c : BuildCtx R) (env : LexEnv) (h : LayoutHeader) (env' : LexEnv) (input intro : Nat)
    (ds : List (QuadPat R)) : Prop where
  opens : Opens c.lib env h env'
  input : input = h.input.asSlice.length
  intro : intro = h.intro.asSlice.length
  dataset : DatasetMeans c env' h.dataset ds

/-- The resource of a literal layout: the given one, or else the first input. -/
def ResourceMeans (c : BuildCtx R) (env : LexEnv) (input : OneOrMany String) : Option SPattern → Pattern R → Prop
  | some p, p' => p.Means c env p'
  | none, p' => input.asSlice ≠ [] ∧ p' = .var 0

/-- The datatype of a literal layout. -/
def DatatypeMeans (c : BuildCtx R) (env : LexEnv) (default : String) : Option CompactIri → R → Prop
  | some i, r => ∃ i', Expands c.lib env i i' ∧ r = c.iri i'
  | none, r => r = c.iri default

/-- The meaning of the graph of a value. -/
def GraphMeans (c : BuildCtx R) (env : LexEnv) (g : Option (Option SPattern)) (g' : Option (Option (Pattern R))) : Prop :=
  Option.Rel (Option.Rel (SPattern.Means c env)) g g'

/-- The dataset of a list whose nodes are given by `rdf:first` and `rdf:rest`. -/
def ListDatasetMeans (c : BuildCtx R) (head rest : Nat) (first : Pattern R) (ds : List (QuadPat R)) : Prop :=
  ∀ q, q ∈ ds ↔ q = ⟨.var head, .res (c.iri "http://www.w3.org/1999/02/22-rdf-syntax-ns#first"), first, none⟩ ∨
    q = ⟨.var head, .res (c.iri "http://www.w3.org/1999/02/22-rdf-syntax-ns#rest"), .var rest, none⟩

/-- The dataset of a list node. Without explicit dataset, it is the dataset of an RDF list if the value has one input, and
empty otherwise. -/
def NodeDatasetMeans (c : BuildCtx R) (env : LexEnv) (head rest : Nat) (input : List SPattern) (dataset : Option (List (Quad SPattern)))
    (ds : List (QuadPat R)) : Prop :=
  match dataset with
  | some d => DatasetMeans c env d ds
  | none => (∀ p, input = [p] → ∃ p', p.Means c env p' ∧ ListDatasetMeans c head rest p' ds) ∧
      (input.length ≠ 1 → ds = [])

/-- The patterns given as inputs to the layout of a value: by default, a variable. -/
def SFormat.inputs (default : String) : SFormat → List SPattern
  | .format _ input _ => input.asSlice
  | .layout _ => [.var default]

/-- The graph of a value. -/
def SFormat.graph : SFormat → Option (Option SPattern)
  | .format _ _ graph => graph
  | .layout _ => none

/-- The header of a layout definition. -/
def SLayout.header : SLayout → Option LayoutHeader
  | .unit h _ => some h
  | .boolean h _ _ => some h
  | .number h _ _ => some h
  | .byteString h _ _ => some h
  | .textString h _ _ _ => some h
  | .id h _ _ => some h
  | .product h _ => some h
  | .sum h _ => some h
  | .ordered h _ _ _ => some h
  | .unordered h _ => some h
  | .sized h _ => some h
  | .bool _ => none
  | .union h => some h
  | .intersection h => some h

/-- The definition has the identifier `i`. -/
def SLayout.HasId (l : SLayout) (i : CompactIri) : Prop := ∃ h, l.header = some h ∧ h.id = some i

mutual
/-- In the environment `env` and among the layouts `reg`, the definition means the layout `a`. -/
def SLayout.Means (c : BuildCtx R) (reg : R → Option (AbsLayout R)) : SLayout → LexEnv → AbsLayout R → Prop
  | .unit h k, env, a => ∃ l env', a = .unit l ∧ HeaderMeans c env h env' l.input l.intro l.dataset ∧ l.const = k
  | .boolean h r dt, env, a => ∃ l env', a = .boolean l ∧ HeaderMeans c env h env' l.input l.intro l.dataset ∧
      ResourceMeans c env' h.input r l.resource ∧
      DatatypeMeans c env' "http://www.w3.org/2001/XMLSchema#boolean" dt l.datatype
  | .number h r dt, env, a => ∃ l env', a = .number l ∧ HeaderMeans c env h env' l.input l.intro l.dataset ∧
      ResourceMeans c env' h.input r l.resource ∧ DatatypeMeans c env' "" (some dt) l.datatype
  | .byteString h r dt, env, a => ∃ l env', a = .byteString l ∧ HeaderMeans c env h env' l.input l.intro l.dataset ∧
      ResourceMeans c env' h.input r l.resource ∧ DatatypeMeans c env' "" (some dt) l.datatype
  | .textString h p r dt, env, a => ∃ l env', a = .textString l p ∧ HeaderMeans c env h env' l.input l.intro l.dataset ∧
      ResourceMeans c env' h.input r l.resource ∧
      DatatypeMeans c env' "http://www.w3.org/2001/XMLSchema#string" dt l.datatype
  | .id h p r, env, a => ∃ input intro ds r' env', a = .id input intro ds p r' ∧ HeaderMeans c env h env' input intro ds ∧
      ResourceMeans c env' h.input r r'
  | .product h fields, env, a => ∃ l env', a = .product l ∧ HeaderMeans c env h env' l.input l.intro l.dataset ∧
      FieldsMean c reg h.input fields env' l.fields
  | .sum h variants, env, a => ∃ l env', a = .sum l ∧ HeaderMeans c env h env' l.input l.intro l.dataset ∧
      VariantsMean c reg variants env' l.variants
  | .ordered h node head tail, env, a => ∃ l env', a = .ordered l ∧ HeaderMeans c env h env' l.input l.intro l.dataset ∧
      node.Means c reg env' l.node ∧ head.Means c env' l.head ∧ tail.Means c env' l.tail
  | .unordered h item, env, a => ∃ l env', a = .unordered l ∧ HeaderMeans c env h env' l.input l.intro l.dataset ∧
      item.Means c reg h.input env' l.item
  | .sized h items, env, a => ∃ l env', a = .sized l ∧ HeaderMeans c env h env' l.input l.intro l.dataset ∧
      ItemsMean c reg h.input items env' l.items
  | .bool b, _, a => a = if b then .always else .never
  | .union _, _, _ => False
  | .intersection _, _, _ => False

/-- The meaning of a reference to a layout: a nested definition does not see the variables declared around it, and is found
in `reg` under its identifier. -/
def SLayoutRef.Means (c : BuildCtx R) (reg : R → Option (AbsLayout R)) : SLayoutRef → LexEnv → R → Prop
  | .ref i, env, r => ∃ i', Expands c.lib env i i' ∧ r = c.iri i'
  | .layout l, env, r => (∃ a, reg r = some a ∧ l.Means c reg env.nested a) ∧
      ∀ i, l.HasId i → ∃ i', Expands c.lib env i i' ∧ r = c.iri i'

/-- The meaning of a value. -/
def SFormat.Means (c : BuildCtx R) (reg : R → Option (AbsLayout R)) (default : String) : SFormat → LexEnv → ValueFormat R → Prop
  | .format l input graph, env, f => l.Means c reg env f.layout ∧ List.Forall₂ (SPattern.Means c env) input.asSlice f.input ∧
      GraphMeans c env graph f.graph
  | .layout l, env, f => l.Means c reg env f.layout ∧ (∃ i, NameDenotes env.names default i ∧ f.input = [.var i]) ∧ f.graph = none

/-- The meaning of the fields of a record. -/
def FieldsMean (c : BuildCtx R) (reg : R → Option (AbsLayout R)) (input : OneOrMany String) :
    List (Value × SField) → LexEnv → List (Value × Field R) → Prop
  | [], _, fs => fs = []
  | (name, f) :: fs, env, fs' => ∃ f' fs'', fs' = (name, f') :: fs'' ∧ f.Means c reg input env f' ∧
      FieldsMean c reg input fs env fs''

/-- The meaning of a field. Its `property`, if any, leads from the first input to its first introduced variable. -/
def SField.Means (c : BuildCtx R) (reg : R → Option (AbsLayout R)) (input : OneOrMany String) : SField → LexEnv → Field R → Prop
  | .mk intro value ds property required, env, f => f.intro = intro.asSlice.length ∧ f.required = required ∧
      value.Means c reg "value" (env.declare intro.asSlice) f.value ∧
      (property.isSome = true → input.asSlice ≠ [] ∧ intro.asSlice ≠ []) ∧
      PropDatasetMeans c (env.declare intro.asSlice) env.names.length ds property f.dataset

/-- The meaning of the variants of a sum. -/
def VariantsMean (c : BuildCtx R) (reg : R → Option (AbsLayout R)) : List (String × SVariant) → LexEnv → List (Variant R) → Prop
  | [], _, vs => vs = []
  | (name, v) :: vs, env, vs' => ∃ v' vs'', vs' = v' :: vs'' ∧ v'.name = name ∧ v.Means c reg env v' ∧
      VariantsMean c reg vs env vs''

/-- The meaning of a variant. -/
def SVariant.Means (c : BuildCtx R) (reg : R → Option (AbsLayout R)) : SVariant → LexEnv → Variant R → Prop
  | .mk intro value ds, env, v => v.intro = intro.asSlice.length ∧
      value.Means c reg "self" (env.declare intro.asSlice) v.value ∧ DatasetMeans c (env.declare intro.asSlice) ds v.dataset

/-- The meaning of the items of a sized list. -/
def ItemsMean (c : BuildCtx R) (reg : R → Option (AbsLayout R)) (input : OneOrMany String) :
    List SItem → LexEnv → List (ItemLayout R) → Prop
  | [], _, is => is = []
  | i :: is, env, is' => ∃ i' is'', is' = i' :: is'' ∧ i.Means c reg input env i' ∧ ItemsMean c reg input is env is''

/-- The meaning of a list item. Its `property`, if any, leads from the first input to its first introduced variable. -/
def SItem.Means (c : BuildCtx R) (reg : R → Option (AbsLayout R)) (input : OneOrMany String) : SItem → LexEnv → ItemLayout R → Prop
  | .mk intro value ds property, env, i => i.intro = intro.asSlice.length ∧
      value.Means c reg "value" (env.declare intro.asSlice) i.value ∧
      (property.isSome = true → input.asSlice ≠ [] ∧ intro.asSlice ≠ []) ∧
      PropDatasetMeans c (env.declare intro.asSlice) env.names.length ds property i.dataset

/-- The meaning of the node of an ordered list: the variables `head` and `rest` are declared before those it introduces. A
node given by its layout has one more variable, the value. -/
def SNode.Means (c : BuildCtx R) (reg : R → Option (AbsLayout R)) : SNode → LexEnv → ItemLayout R → Prop
  | .node head rest intro value ds, env, n => n.intro = intro.asSlice.length ∧
      value.Means c reg "value" (env.declare (head :: rest :: intro.asSlice)) n.value ∧
      NodeDatasetMeans c (env.declare (head :: rest :: intro.asSlice)) env.names.length (env.names.length + 1)
        (value.inputs "value") ds n.dataset
  | .layout r, env, n => n.intro = 1 ∧ r.Means c reg env n.value.layout ∧
      n.value.input = [.var (env.names.length + 2)] ∧ n.value.graph = none ∧
      ListDatasetMeans c env.names.length (env.names.length + 1) (.var (env.names.length + 2)) n.dataset
end

/-- The layout of a value. -/
def SFormat.ref : SFormat → SLayoutRef
  | .format l _ _ => l
  | .layout l => l

/-- The layout of the value of a field. -/
def SField.ref : SField → SLayoutRef
  | .mk _ value _ _ _ => value.ref

/-- The layout of a variant. -/
def SVariant.ref : SVariant → SLayoutRef
  | .mk _ value _ => value.ref

/-- The layout of a list item. -/
def SItem.ref : SItem → SLayoutRef
  | .mk _ value _ _ => value.ref

/-- The layout of the value of a list node. -/
def SNode.ref : SNode → SLayoutRef
  | .node _ _ _ value _ => value.ref
  | .layout r => r

/-- The layouts that the definition refers to directly. -/
def SLayout.refs : SLayout → List SLayoutRef
  | .product _ fields => fields.map fun f => f.2.ref
  | .sum _ variants => variants.map fun v => v.2.ref
  | .ordered _ node _ _ => [node.ref]
  | .unordered _ item => [item.ref]
  | .sized _ items => items.map SItem.ref
  | _ => []

/-- The definition `l'`, in the environment `env'`, is the definition `l` in the environment `env`, or is nested in it. -/
inductive SubDef (lib : IriLib) (env : LexEnv) (l : SLayout) : LexEnv → SLayout → Prop
  | refl : SubDef lib env l env l
  | nested {env₁ l₁ h env₂ l₂} : SubDef lib env l env₁ l₁ → l₁.header = some h → Opens lib env₁ h env₂ →
      .layout l₂ ∈ l₁.refs → SubDef lib env l env₂.nested l₂

/-- The meaning of a layout definition with its extra properties. -/
def EntryMeans (c : BuildCtx R) (reg : R → Option (AbsLayout R)) (l : SLayout) (env : LexEnv) (e : Entry R) : Prop :=
  l.Means c reg env e.layout ∧
    match l.header with
    | some h => ∃ env', Opens c.lib env h env' ∧ ExtraMeans c env' h.extra e.extra
    | none => e.extra = []

/-- The pre-built layout only uses the variables in scope at each place: its declared inputs, introduced variables, and for
the nodes of an ordered list also head and rest. -/
def AbsLayout.Closed : AbsLayout R → Prop
  | .never => True
  | .unit l => PatsBelow (l.input + l.intro) l.dataset
  | .boolean l => PatsBelow (l.input + l.intro) l.dataset ∧ l.resource.Below (l.input + l.intro)
  | .number l => PatsBelow (l.input + l.intro) l.dataset ∧ l.resource.Below (l.input + l.intro)
  | .byteString l => PatsBelow (l.input + l.intro) l.dataset ∧ l.resource.Below (l.input + l.intro)
  | .textString l _ => PatsBelow (l.input + l.intro) l.dataset ∧ l.resource.Below (l.input + l.intro)
  | .id input intro ds _ r => PatsBelow (input + intro) ds ∧ r.Below (input + intro)
  | .product l => (Layout.product l).Closed
  | .unordered l => (Layout.unordered l).Closed
  | .ordered l => (Layout.ordered l).Closed
  | .sized l => (Layout.sized l).Closed
  | .sum l => (Layout.sum l).Closed
  | .always => True

mutual
/-- Some layout of the definition, itself or nested in it, has an explicit identifier. -/
def SLayout.named : SLayout → Bool
  | .product h fields => h.id.isSome || fieldsNamed fields
  | .sum h variants => h.id.isSome || variantsNamed variants
  | .ordered h node _ _ => h.id.isSome || node.named
  | .unordered h item => h.id.isSome || item.named
  | .sized h items => h.id.isSome || itemsNamed items
  | .unit h _ => h.id.isSome
  | .boolean h _ _ => h.id.isSome
  | .number h _ _ => h.id.isSome
  | .byteString h _ _ => h.id.isSome
  | .textString h _ _ _ => h.id.isSome
  | .id h _ _ => h.id.isSome
  | .bool _ => false
  | .union h => h.id.isSome
  | .intersection h => h.id.isSome

/-- See `SLayout.named`. -/
def SLayoutRef.named : SLayoutRef → Bool
  | .ref _ => false
  | .layout l => l.named

/-- See `SLayout.named`. -/
def SFormat.named : SFormat → Bool
  | .format l _ _ => l.named
  | .layout l => l.named

/-- See `SLayout.named`. -/
def fieldsNamed : List (Value × SField) → Bool
  | [] => false
  | (_, f) :: fs => f.named || fieldsNamed fs

/-- See `SLayout.named`. -/
def SField.named : SField → Bool
  | .mk _ value _ _ _ => value.named

/-- See `SLayout.named`. -/
def variantsNamed : List (String × SVariant) → Bool
  | [] => false
  | (_, v) :: vs => v.named || variantsNamed vs

/-- See `SLayout.named`. -/
def SVariant.named : SVariant → Bool
  | .mk _ value _ => value.named

/-- See `SLayout.named`. -/
def itemsNamed : List SItem → Bool
  | [] => false
  | i :: is => i.named || itemsNamed is

/-- See `SLayout.named`. -/
def SItem.named : SItem → Bool
  | .mk _ value _ _ => value.named

/-- See `SLayout.named`. -/
def SNode.named : SNode → Bool
  | .node _ _ _ value _ => value.named
  | .layout r => r.named
end

mutual
/-- Some layout of the definition is a union or an intersection. -/
def SLayout.setOp : SLayout → Bool
  | .union _ => true
  | .intersection _ => true
  | .product _ fields => fieldsSetOp fields
  | .sum _ variants => variantsSetOp variants
  | .ordered _ node _ _ => node.setOp
  | .unordered _ item => item.setOp
  | .sized _ items => itemsSetOp items
  | _ => false

/-- See `SLayout.setOp`. -/
def SLayoutRef.setOp : SLayoutRef → Bool
  | .ref _ => false
  | .layout l => l.setOp

/-- See `SLayout.setOp`. -/
def SFormat.setOp : SFormat → Bool
  | .format l _ _ => l.setOp
  | .layout l => l.setOp

/-- See `SLayout.setOp`. -/
def fieldsSetOp : List (Value × SField) → Bool
  | [] => false
  | (_, f) :: fs => f.setOp || fieldsSetOp fs

/-- See `SLayout.setOp`. -/
def SField.setOp : SField → Bool
  | .mk _ value _ _ _ => value.setOp

/-- See `SLayout.setOp`. -/
def variantsSetOp : List (String × SVariant) → Bool
  | [] => false
  | (_, v) :: vs => v.setOp || variantsSetOp vs

/-- See `SLayout.setOp`. -/
def SVariant.setOp : SVariant → Bool
  | .mk _ value _ => value.setOp

/-- See `SLayout.setOp`. -/
def itemsSetOp : List SItem → Bool
  | [] => false
  | i :: is => i.setOp || itemsSetOp is

/-- See `SLayout.setOp`. -/
def SItem.setOp : SItem → Bool
  | .mk _ value _ _ => value.setOp

/-- See `SLayout.setOp`. -/
def SNode.setOp : SNode → Bool
  | .node _ _ _ value _ => value.setOp
  | .layout r => r.setOp
end

/-- The builder is obtained from an empty one by compiling these definitions successfully (the last one first), starting the generator
of identifiers anywhere each time. -/
inductive Builder.Compiled [DecidableEq R] (c : BuildCtx R) : List SLayout → Builder R → Prop
  | empty (n : Nat) : Compiled c [] ⟨[], n⟩
  | define {defs : List SLayout} {b b' : Builder R} (n : Nat) (l : SLayout) (r : R) :
      Compiled c defs b → l.buildWithContext c { b with next := n } = (.ok r, b') → Compiled c (l :: defs) b'

/-- Resources are terms: IRIs and literals are themselves. -/
structure BuildCtx.OverTerms (c : BuildCtx Term) : Prop where
  iri : ∀ i, c.iri i = .iri i
  lit : ∀ l, c.lit l = .literal l

/-- The registry made of the layouts of a builder, once built. -/
def Builder.registry [DecidableEq R] (ls : List (R × Layout R × List (R × R))) : Registry R := fun ref => (ls.lookup ref).map Prod.fst

end Verif
