import Verif.HydrateSpec
import Verif.DehydrateSpec
import Verif.RoundTripSpec
import Verif.Derive

/-!
# Specification of derived deserialization

* `DsCtx.toHy`: the context of generic hydration that has the same layouts, interpretation and dataset.
* `DsLaws`: the Rust types of literals read the lexical values of XML Schema, when they read anything.
* `DsTotal`: the interpretation knows every resource of the layouts, the types are large enough for the
  dataset, and no two variants of an enumeration match the dataset together.
* `UpToOrder`: equality of trees, up to the order of unordered lists.
* `Decided`: the tree alone tells the variant of every enumeration.
-/

namespace Verif

variable {R : Type}

/-- The context of generic hydration. -/
def DsCtx.toHy (c : DsCtx R) (xsd : Xsd) (le : TypedValue R → TypedValue R → Bool) : HyCtx R where
  reg := c.reg
  irisOf := c.irisOf
  literalsOf := c.literalsOf
  xsd := xsd
  ds := c.ds
  le := le

/-- The order that makes every list sorted. -/
def anyOrder : TypedValue R → TypedValue R → Bool := fun _ _ => true

/-- Every identifier in the tree satisfies `P`. -/
inductive AllIds (P : String → Prop) : TypedValue R → Prop
  | literal (l : TypedLiteral R) : (∀ s ref, l = .id s ref → P s) → AllIds P (.literal l)
  | variant {v ref i} : AllIds P v → AllIds P (.variant v ref i)
  | map {m ref} : (∀ e ∈ m, AllIds P e.2) → AllIds P (.map m ref)
  | list {vs ref} : (∀ v ∈ vs, AllIds P v) → AllIds P (.list vs ref)
  | always {v} : AllIds P (.always v)

/-- Every literal of the tree satisfies `P`. -/
inductive AllLiterals (P : TypedLiteral R → Prop) : TypedValue R → Prop
  | literal (l : TypedLiteral R) : P l → AllLiterals P (.literal l)
  | variant {v ref i} : AllLiterals P v → AllLiterals P (.variant v ref i)
  | map {m ref} : (∀ e ∈ m, AllLiterals P e.2) → AllLiterals P (.map m ref)
  | list {vs ref} : (∀ v ∈ vs, AllLiterals P v) → AllLiterals P (.list vs ref)

/-- If the literal is of one of the integer types of the runtime, it is an integer of that type. -/
def DsCtx.Fits (c : DsCtx R) (lit : TypedLiteral R) : Prop :=
  ∀ q ref dt lo hi, lit = .number q ref → c.prim ref = some (.int dt lo hi) → ∃ z : Int, q = z ∧ lo ≤ z ∧ z ≤ hi

/-- The string is not the identifier of a blank node of the interpretation. -/
def DsCtx.NotBlank (c : DsCtx R) (s : String) : Prop := ∀ r, s ∉ c.blankIdsOf r

/-- Equality of trees, up to the order of the items of unordered lists. -/
inductive UpToOrder (reg : Registry R) : TypedValue R → TypedValue R → Prop
  | literal (l : TypedLiteral R) : UpToOrder reg (.literal l) (.literal l)
  | always (v : Value) : UpToOrder reg (.always v) (.always v)
  | variant {v w ref i} : UpToOrder reg v w → UpToOrder reg (.variant v ref i) (.variant w ref i)
  | map {m m' ref} : m.map Prod.fst = m'.map Prod.fst → (∀ e ∈ m.zip m', UpToOrder reg e.1.2 e.2.2) →
      UpToOrder reg (.map m ref) (.map m' ref)
  | list {vs ws ref} : vs.length = ws.length → (∀ e ∈ vs.zip ws, UpToOrder reg e.1 e.2) →
      UpToOrder reg (.list vs ref) (.list ws ref)
  | set {vs vs' ws : List (TypedValue R)} {ref l} : reg ref = some (.unordered l) → vs'.Perm vs → vs'.length = ws.length →
      (∀ e ∈ vs'.zip ws, UpToOrder reg e.1 e.2) → UpToOrder reg (.list vs ref) (.list ws ref)

/-- The datatype of a literal layout. -/
def Layout.datatype? : Layout R → Option R
  | .boolean l => some l.datatype
  | .number l => some l.datatype
  | .byteString l => some l.datatype
  | .textString l => some l.datatype
  | _ => none

/-- The types implemented by the runtime are those of the corresponding layouts of the prelude. -/
def Prim.Describes (c : DsCtx R) (l : Layout R) : Prim → Prop
  | .id => l = .id { input := 1, intro := 0, dataset := [], pattern := none, resource := .var 0 }
  | .string => ∃ d, l = .textString { plainData d with pattern := none } ∧ c.datatypeIri d = xsdString
  | .int dt _ _ => ∃ d, l = .number (plainData d) ∧ c.datatypeIri d = dt

/-- What is assumed of the Rust types and of the interpretation. -/
structure DsLaws (c : DsCtx R) (x : Xsd) : Prop where
  prim : ∀ ref p, c.prim ref = some p → ∃ l, c.reg ref = some l ∧ p.Describes c l
  /-- A datatype is interpreted as the IRI it is in the layout. -/
  datatype : ∀ ref l d, c.reg ref = some l → l.datatype? = some d →
    c.irisOf d = [c.datatypeIri d] ∧ c.datatypeIri d ≠ "http://www.w3.org/1999/02/22-rdf-syntax-ns#langString"
  boolType : ∀ ref l, c.reg ref = some (.boolean l) → c.datatypeIri l.datatype = x.boolean
  numType : ∀ ref l, c.reg ref = some (.number l) → x.isDecimal (c.datatypeIri l.datatype) = true
  boolean : ∀ ref l s lit, c.reg ref = some (.boolean l) → c.fromLiteral ref s = some lit →
    ∃ b, x.parseBoolean s = some b ∧ lit = .boolean b ref
  number : ∀ ref l s lit, c.reg ref = some (.number l) → c.fromLiteral ref s = some lit →
    ∃ q, x.parseDecimal s = some q ∧ lit = .number q ref
  /-- No type implements byte strings. -/
  bytes : ∀ ref l s, c.reg ref = some (.byteString l) → c.fromLiteral ref s = none
  text : ∀ ref l s lit, c.reg ref = some (.textString l) → c.fromLiteral ref s = some lit → lit = .textString s ref
  int : ∀ s z, c.parseInt s = some z → x.parseDecimal s = some (z : Rat)
  /-- A resource has at most one literal. -/
  single : ∀ r, (c.literalsOf r).length ≤ 1

/-- The number type of the layout can hold the number. -/
def DsCtx.Reads (c : DsCtx R) (ref : R) (s : String) : Prop :=
  match c.prim ref with
  | some (.int _ lo hi) => ∃ z, c.parseInt s = some z ∧ lo ≤ z ∧ z ≤ hi
  | _ => ∃ lit, c.fromLiteral ref s = some lit

/-- What is needed for derived code to read everything that generic hydration reads. -/
structure DsTotal [DecidableEq R] (c : DsCtx R) (x : Xsd) : Prop where
  known : ∀ r, c.known r = true
  boolean : ∀ ref l s b, c.reg ref = some (.boolean l) → x.parseBoolean s = some b → ∃ lit, c.fromLiteral ref s = some lit
  text : ∀ ref l s, c.reg ref = some (.textString l) → ∃ lit, c.fromLiteral ref s = some lit
  /-- Every number of the dataset, of the datatype of a number layout, fits in the Rust type. -/
  number : ∀ ref l, c.reg ref = some (.number l) → ∀ r, ∀ lit ∈ c.literalsOf r,
    lit.type = .any (c.datatypeIri l.datatype) → ∀ q, x.parseDecimal lit.value = some q → c.Reads ref lit.value
  /-- At most one variant of a sum has a pattern that matches. -/
  discriminated : ∀ ref l, c.reg ref = some (.sum l) → ∀ (g : Option R) (ins : List R) (σ τ τ' : Subst R) (i j : Nat)
    (v w : Variant R), ins.length = l.input →
    UniqueMatch c.ds (ins.map some ++ List.replicate l.intro none) (inGraph g l.dataset) σ →
    l.variants[i]? = some v → l.variants[j]? = some w →
    IsMatch c.ds (σ ++ List.replicate v.intro none) (inGraph g v.dataset) τ →
    IsMatch c.ds (σ ++ List.replicate w.intro none) (inGraph g w.dataset) τ' → i = j
  /-- The derive macros have no type for the `always` layout. -/
  noAlways : ∀ ref, c.reg ref ≠ some .always

/-! ## Serialization -/

/-- The tree is a value of the Rust type of the layout: the fields of a structure are in the order of the layout, and
those that are not optional are there. -/
inductive HasType (reg : Registry R) : R → TypedValue R → Prop
  | unit {ref l} : reg ref = some (.unit l) → HasType reg ref (.literal (.unit l.const ref))
  | boolean {ref l} (b : Bool) : reg ref = some (.boolean l) → HasType reg ref (.literal (.boolean b ref))
  | number {ref l} (q : Rat) : reg ref = some (.number l) → HasType reg ref (.literal (.number q ref))
  | textString {ref l} (s : String) : reg ref = some (.textString l) → HasType reg ref (.literal (.textString s ref))
  | id {ref l} (s : String) : reg ref = some (.id l) → HasType reg ref (.literal (.id s ref))
  | product {ref l} (m : List (Value × TypedValue R)) : reg ref = some (.product l) →
      (m.map Prod.fst).Sublist (l.fields.map Prod.fst) →
      (∀ k f, (k, f) ∈ l.fields → f.required = true → ∃ v, (k, v) ∈ m) →
      (∀ k v f, (k, v) ∈ m → (k, f) ∈ l.fields → HasType reg f.value.layout v) → HasType reg ref (.map m ref)
  | unordered {ref l} (vs : List (TypedValue R)) : reg ref = some (.unordered l) →
      (∀ v ∈ vs, HasType reg l.item.value.layout v) → HasType reg ref (.list vs ref)
  | ordered {ref l} (vs : List (TypedValue R)) : reg ref = some (.ordered l) →
      (∀ v ∈ vs, HasType reg l.node.value.layout v) → HasType reg ref (.list vs ref)
  | sized {ref l} (vs : List (TypedValue R)) : reg ref = some (.sized l) → vs.length = l.items.length →
      (∀ e ∈ l.items.zip vs, HasType reg e.1.value.layout e.2) → HasType reg ref (.list vs ref)
  | sum {ref l} (i : Nat) (x : Variant R) (v : TypedValue R) : reg ref = some (.sum l) → l.variants[i]? = some x →
      HasType reg x.value.layout v → HasType reg ref (.variant v ref i)

/-- For every enumeration in the tree, the layouts of all the variants but the chosen one reject the value before anything is
written, and these variants introduce no resource. -/
inductive Decided (reg : Registry R) : TypedValue R → Prop
  | literal (l : TypedLiteral R) : Decided reg (.literal l)
  | variant {v ref i} : (∀ l, reg ref = some (.sum l) → ∀ j y, j ≠ i → l.variants[j]? = some y → y.intro = 0 ∧
        ∃ l', reg y.value.layout = some l' ∧ l'.rejects v.untype = true ∧ ∀ p, l' = .product p → p.intro = 0) →
      Decided reg v → Decided reg (.variant v ref i)
  | map {m ref} : (∀ e ∈ m, Decided reg e.2) → Decided reg (.map m ref)
  | list {vs ref} : (∀ v ∈ vs, Decided reg v) → Decided reg (.list vs ref)
  | always {v} : Decided reg (.always v)

/-- The resource described by a literal or identifier layout is its input (or, for literals, a constant). -/
def Layout.OfInput {R : Type} : Layout R → Prop
  | .boolean l => l.resource = .var 0 ∨ ∃ t, l.resource = .res t
  | .number l => l.resource = .var 0 ∨ ∃ t, l.resource = .res t
  | .textString l => l.resource = .var 0 ∨ ∃ t, l.resource = .res t
  | .id l => l.resource = .var 0
  | _ => True

/-- The types implemented by the runtime are those of the corresponding layouts of the prelude. -/
def Prim.Writes (l : Layout Term) : Prim → Prop
  | .id => l = .id { input := 1, intro := 0, dataset := [], pattern := none, resource := .var 0 }
  | .string => l = .textString { plainData (.iri xsdString) with pattern := none }
  | .int dt _ _ => l = .number (plainData (.iri dt))

/-- The layouts are among those derived types can write. -/
structure SeLaws (c : SeCtx) : Prop where
  prim : ∀ ref p, c.prim ref = some p → ∃ l, c.reg ref = some l ∧ p.Writes l
  ofInput : ∀ ref l, c.reg ref = some l → l.OfInput
  datatype : ∀ ref l d, c.reg ref = some l → l.datatype? = some d → ∃ i, d = .iri i

/-- The types write literals as `dehydrate` does. -/
structure SeText (c : SeCtx) (x : Xsd) : Prop where
  boolType : ∀ ref l, c.reg ref = some (.boolean l) → l.datatype = .iri x.boolean
  numType : ∀ ref l i, c.reg ref = some (.number l) → l.datatype = .iri i → x.isDecimal i = true
  boolean : ∀ ref l b, c.reg ref = some (.boolean l) → c.text (.boolean b ref) = x.printBoolean b
  number : ∀ ref l q s, c.reg ref = some (.number l) → x.printDecimal q = some s → c.text (.number q ref) = s
  text : ∀ ref l s, c.reg ref = some (.textString l) → c.text (.textString s ref) = s

/-- The context of derived deserialization over a dataset of terms, where every term stands for itself. -/
def DsCtx.ofTerms (c : SeCtx) (fromLiteral : Term → String → Option (TypedLiteral Term)) (parseInt : String → Option Int)
    (ds : List (Quad Term)) : DsCtx Term where
  reg := c.reg
  prim := c.prim
  known _ := true
  irisOf
    | .iri i => [i]
    | _ => []
  blankIdsOf
    | .blank b => [b]
    | _ => []
  literalsOf
    | .literal l => [l]
    | _ => []
  datatypeIri
    | .iri i => i
    | _ => ""
  fromLiteral := fromLiteral
  parseInt := parseInt
  ds := ds

end Verif
