import Verif.Layout
import Mathlib.Data.List.Dedup

/-!
# Dehydration: tree → RDF dataset

Models `layouts/src/distill/de/mod.rs` and `layouts/src/distill/de/data.rs`.

`dehydrate_with` is generic in the RDF interpretation; it is modelled at the interpretation built by `dehydrate`
(`InputInterpretation`), where a resource is an input, an anonymous resource or a term, and layouts refer to terms.

The output dataset and the interpretation are mutable and survive errors, so a computation is a function from a state
to an outcome *and* a state. `dehydrate_with_ref` is recursive through the layout registry; as for hydration, the
model bounds the depth of the recursion.
-/

namespace Verif

/-- `InputResource`. `layouts/src/distill/de/mod.rs` L276-280. -/
inductive IRes where
  | input (i : Nat)
  | anon (i : Nat)
  | term (t : Term)
  deriving DecidableEq, Repr

/-- `de::Error<Term>`. `layouts/src/distill/de/mod.rs` L28-55. The two terms of `TermAmbiguity` are left out: which
ones are reported depends on the iteration order of a hash map. -/
inductive DeError where
  | incompatibleLayout
  | invalidInputCount (expected found : Nat)
  | undeclaredVariable (x : Nat)
  | dataAmbiguity
  | termAmbiguity
  | layoutNotFound (layout : Term)
  | missingRequiredKey (layout : Term) (key : Value) (value : List (Value × Value))
  deriving DecidableEq, Repr

/-- The mutable state: the output dataset, the terms assigned to resources (`InputInterpretation::map`, as a set of
pairs), and the number of anonymous resources created so far. `layouts/src/distill/de/mod.rs` L297-300, L422-432. -/
structure DeState where
  out : List (Quad IRes)
  terms : List (IRes × Term)
  fresh : Nat
  deriving DecidableEq, Repr

/-- What dehydration reads: layouts, the IRI syntax, the XSD functions. -/
structure DeCtx where
  reg : Registry Term
  isIri : String → Bool
  xsd : Xsd

/-- A computation that may change the state, whatever its outcome. -/
abbrev DeM (α : Type) := DeState → Out DeError α × DeState

namespace DeM

variable {α β : Type}

/-- Return a value. -/
def pure (a : α) : DeM α := fun s => (.ok a, s)

/-- Sequential composition; `?` on errors. -/
def bind (x : DeM α) (f : α → DeM β) : DeM β := fun s =>
  match x s with
  | (.ok a, s') => f a s'
  | (.err e, s') => (.err e, s')
  | (.panic, s') => (.panic, s')
  | (.fuel, s') => (.fuel, s')

/-- An outcome that reads the state but does not change it. -/
def read (f : DeState → Out DeError α) : DeM α := fun s => (f s, s)

/-- An error. -/
def fail (e : DeError) : DeM α := fun s => (.err e, s)

/-- A state change. -/
def modify (f : DeState → DeState) : DeM Unit := fun s => (.ok (), f s)

end DeM

/-- `Environment<R>`. `layouts/src/distill/de/mod.rs` L872-875; also
`generators/rust/treeldr-rs/src/ser/environment.rs`. -/
inductive Env (R : Type) where
  | root (inputs : List R)
  | child (parent : Env R) (intros : List R)

/-- `Environment::get`: the resource, or how far the index is beyond the environment.
`layouts/src/distill/de/mod.rs` L878-892. The subtractions do not underflow because they are only reached when the
index is past the end of the list. -/
def Env.get {R : Type} : Env R → Nat → Except Nat R
  | .root inputs, i =>
    match inputs[i]? with
    | some r => .ok r
    | none => .error (i - inputs.length)
  | .child parent intros, i =>
    match parent.get i with
    | .ok r => .ok r
    | .error j =>
      match intros[j]? with
      | some r => .ok r
      | none => .error (j - intros.length)

/-- `Environment::bind`. `layouts/src/distill/de/mod.rs` L895-897. -/
def Env.bind {R : Type} (env : Env R) (resources : List R) : Env R := .child env resources

namespace Dehydrate

/-- `InputInterpretation::new_resource`. `layouts/src/distill/de/mod.rs` L306-312. -/
def newResource : DeM IRes := fun s => (.ok (.anon s.fresh), { s with fresh := s.fresh + 1 })

/-- The loop of `Environment::intro`. `layouts/src/distill/de/mod.rs` L904-907. -/
def newResources : Nat → DeM (List IRes)
  | 0 => .pure []
  | n + 1 => newResource.bind fun r => (newResources n).bind fun rs => .pure (r :: rs)

/-- `Environment::intro`. `layouts/src/distill/de/mod.rs` L900-910. -/
def intro (env : Env IRes) (count : Nat) : DeM (Env IRes) :=
  (newResources count).bind fun rs => .pure (.child env rs)

/-- `Environment::instantiate_pattern`. `layouts/src/distill/de/mod.rs` L914-926. -/
def instPattern (env : Env IRes) : Pattern Term → Out DeError IRes
  | .var x =>
    match env.get x with
    | .ok r => .ok r
    | .error _ => .err (.undeclaredVariable x)
  | .res t => .ok (.term t)

/-- `Environment::instantiate_patterns`. `layouts/src/distill/de/mod.rs` L928-939. -/
def instPatterns (env : Env IRes) (ps : List (Pattern Term)) : Out DeError (List IRes) :=
  Out.mapM' (instPattern env) ps

/-- `Environment::instantiate_quad`. `layouts/src/distill/de/mod.rs` L941-954. -/
def instQuad (env : Env IRes) (q : QuadPat Term) : Out DeError (Quad IRes) :=
  (instPattern env q.s).bind fun s =>
  (instPattern env q.p).bind fun p =>
  (instPattern env q.o).bind fun o =>
    match q.g with
    | none => .ok ⟨s, p, o, none⟩
    | some g => (instPattern env g).bind fun g => .ok ⟨s, p, o, some g⟩

/-- `BTreeDataset::insert`: a dataset is a set. -/
def insertQuad (out : List (Quad IRes)) (q : Quad IRes) : List (Quad IRes) :=
  if q ∈ out then out else out ++ [q]

/-- `Environment::instantiate_dataset` into the output. `layouts/src/distill/de/mod.rs` L956-969. The quads preceding
one that fails have already been inserted. -/
def instDataset (env : Env IRes) : List (QuadPat Term) → DeM Unit
  | [] => .pure ()
  | q :: qs =>
    (DeM.read fun _ => instQuad env q).bind fun q =>
    (DeM.modify fun s => { s with out := insertQuad s.out q }).bind fun _ =>
      instDataset env qs

/-- `Environment::instantiate_dataset` into a temporary dataset, `layouts/src/distill/de/mod.rs` L675-678. -/
def instLocal (env : Env IRes) (qs : List (QuadPat Term)) : Out DeError (List (Quad IRes)) :=
  Out.mapM' (instQuad env) qs

/-- `IrisOf`: the term itself if it is an IRI, then the IRIs assigned to the resource.
`layouts/src/distill/de/mod.rs` L313-325, L351-382. Assigned IRIs are listed in order of assignment, where the code
iterates over a hash set. -/
def irisOf (s : DeState) (r : IRes) : List String :=
  (match r with
    | .term (.iri i) => [i]
    | _ => []) ++
  s.terms.filterMap fun e =>
    if e.1 = r then
      match e.2 with
      | .iri i => some i
      | _ => none
    else none

/-- `assign_iri` and `assign_literal`. `layouts/src/distill/de/mod.rs` L327-334, L342-349. -/
def assign (r : IRes) (t : Term) : DeM Unit :=
  .modify fun s => { s with terms := if (r, t) ∈ s.terms then s.terms else s.terms ++ [(r, t)] }

/-- `dehydrate_boolean`. `layouts/src/distill/de/data.rs` L11-32. -/
def booleanLit (c : DeCtx) (b : Bool) (iris : List String) : Out DeError RdfLit :=
  match iris.find? (fun i => i == c.xsd.boolean) with
  | some i => .ok ⟨c.xsd.printBoolean b, .any i⟩
  | none => .panic

/-- `dehydrate_number`. `layouts/src/distill/de/data.rs` L34-58. -/
def numberLit (c : DeCtx) (q : Rat) (iris : List String) : Out DeError RdfLit :=
  match iris.find? c.xsd.isDecimal with
  | some i =>
    match c.xsd.printDecimal q with
    | some text => .ok ⟨text, .any i⟩
    | none => .panic
  | none => .panic

/-- `dehydrate_byte_string`: not implemented in the code. `layouts/src/distill/de/data.rs` L60-71. -/
def byteStringLit (_ : List UInt8) (_ : List String) : Out DeError RdfLit := .panic

/-- `dehydrate_text_string`. `layouts/src/distill/de/data.rs` L73-90. -/
def textLit (text : String) (iris : List String) : Out DeError RdfLit :=
  match iris with
  | i :: _ => .ok ⟨text, .any i⟩
  | [] => .panic

/-- The common body of the data layouts. `layouts/src/distill/de/mod.rs` L585-645. -/
def data (inputs : List IRes) (l : DataLayout Term) (lit : List String → Out DeError RdfLit) : DeM Unit :=
  (intro (.root inputs) l.intro).bind fun env =>
  (instDataset env l.dataset).bind fun _ =>
  (DeM.read fun _ => instPattern env l.resource).bind fun r =>
  (DeM.read fun s => lit (irisOf s (.term l.datatype))).bind fun lit =>
    assign r (.literal lit)

/-- The identifier layout. `layouts/src/distill/de/mod.rs` L649-663. -/
def ident (c : DeCtx) (inputs : List IRes) (l : IdLayout Term) (text : String) : DeM Unit :=
  (intro (.root inputs) l.intro).bind fun env =>
  (instDataset env l.dataset).bind fun _ =>
  (DeM.read fun _ => instPattern env l.resource).bind fun r =>
    if c.isIri text then assign r (.iri text) else .fail .incompatibleLayout

/-- The recursive call: value, graph, layout, inputs. -/
abbrev Rec := Value → Option IRes → Term → List IRes → DeM Unit

/-- `dehydrate_sub_value`. `layouts/src/distill/de/mod.rs` L835-870. -/
def subValue (rec : Rec) (graph : Option IRes) (fmt : ValueFormat Term) (env : Env IRes) (v : Value) : DeM Unit :=
  (DeM.read fun _ => instPatterns env fmt.input).bind fun ins =>
  (DeM.read fun _ =>
    match fmt.graph with
    | some none => .ok none
    | some (some g) => (instPattern env g).map some
    | none => .ok graph).bind fun g =>
    rec v g fmt.layout ins

/-- The loop over the variants of a sum, and what follows it. `layouts/src/distill/de/mod.rs` L673-704. Whatever a
variant wrote to the output before failing stays there. -/
def variants (rec : Rec) (graph : Option IRes) (env : Env IRes) (v : Value) :
    List (Variant Term) → Option (List (Quad IRes)) → DeM Unit
  | [], some quads => .modify fun s => { s with out := quads.foldl insertQuad s.out }
  | [], none => .fail .incompatibleLayout
  | variant :: rest, selection =>
    (intro env variant.intro).bind fun venv =>
    (DeM.read fun _ => instLocal venv variant.dataset).bind fun quads => fun s =>
      match subValue rec graph variant.value venv v s with
      | (.ok _, s') =>
        match selection with
        | some _ => (.err .dataAmbiguity, s')
        | none => variants rec graph env v rest (some quads) s'
      | (.err _, s') => variants rec graph env v rest selection s'
      | (.panic, s') => (.panic, s')
      | (.fuel, s') => (.fuel, s')

/-- `layout.fields.get(key)`: lookup in a `BTreeMap`. -/
def lookup (key : Value) (fields : List (Value × Field Term)) : Option (Field Term) :=
  (fields.find? fun e => e.1 == key).map Prod.snd

/-- The loop over the entries of a record. `layouts/src/distill/de/mod.rs` L711-729. -/
def entries (rec : Rec) (graph : Option IRes) (env : Env IRes) (fields : List (Value × Field Term)) :
    List (Value × Value) → DeM Unit
  | [] => .pure ()
  | (key, v) :: rest =>
    match lookup key fields with
    | some field =>
      (intro env field.intro).bind fun fenv =>
      (instDataset fenv field.dataset).bind fun _ =>
      (subValue rec graph field.value fenv v).bind fun _ =>
        entries rec graph env fields rest
    | none => .fail .incompatibleLayout

/-- The check that required keys are present. `layouts/src/distill/de/mod.rs` L731-739. -/
def requireKeys (ref : Term) (m : List (Value × Value)) : List (Value × Field Term) → DeM Unit
  | [] => .pure ()
  | (key, field) :: rest =>
    if field.required && !(m.any fun e => e.1 == key) then .fail (.missingRequiredKey ref key m)
    else requireKeys ref m rest

/-- The loop over the items of an unordered list. `layouts/src/distill/de/mod.rs` L750-762. -/
def items (rec : Rec) (graph : Option IRes) (env : Env IRes) (item : ItemLayout Term) : List Value → DeM Unit
  | [] => .pure ()
  | v :: rest =>
    (intro env item.intro).bind fun ienv =>
    (instDataset ienv item.dataset).bind fun _ =>
    (subValue rec graph item.value ienv v).bind fun _ =>
      items rec graph env item rest

/-- The loop over the items of an ordered list. `layouts/src/distill/de/mod.rs` L770-795. -/
def nodes (rec : Rec) (graph : Option IRes) (env : Env IRes) (node : ItemLayout Term) (tail : Pattern Term) :
    IRes → List Value → DeM Unit
  | _, [] => .pure ()
  | head, v :: rest =>
    (if rest.isEmpty then DeM.read fun _ => instPattern env tail else newResource).bind fun next =>
    (intro (env.bind [head, next]) node.intro).bind fun nenv =>
    (instDataset nenv node.dataset).bind fun _ =>
    (subValue rec graph node.value nenv v).bind fun _ =>
      nodes rec graph env node tail next rest

/-- The loop over the items of a sized list. `layouts/src/distill/de/mod.rs` L803-825. -/
def sizedItems (rec : Rec) (graph : Option IRes) (env : Env IRes) : List Value → List (ItemLayout Term) → DeM Unit
  | [], [] => .pure ()
  | v :: vs, item :: is =>
    (intro env item.intro).bind fun ienv =>
    (instDataset ienv item.dataset).bind fun _ =>
    (subValue rec graph item.value ienv v).bind fun _ =>
      sizedItems rec graph env vs is
  | _, _ => .fail .incompatibleLayout

/-- The `match layout` of `dehydrate_with_ref`. `layouts/src/distill/de/mod.rs` L573-832. -/
def layout (c : DeCtx) (rec : Rec) (v : Value) (graph : Option IRes) (ref : Term) (inputs : List IRes) :
    Layout Term → DeM Unit
  | .never => .fail .incompatibleLayout
  | .unit l =>
    if v = l.const then
      (intro (.root inputs) l.intro).bind fun env => instDataset env l.dataset
    else .fail .incompatibleLayout
  | .boolean l =>
    match v with
    | .literal (.boolean b) => data inputs l (booleanLit c b)
    | _ => .fail .incompatibleLayout
  | .number l =>
    match v with
    | .literal (.number q) => data inputs l (numberLit c q)
    | _ => .fail .incompatibleLayout
  | .byteString l =>
    match v with
    | .literal (.byteString b) => data inputs l (byteStringLit b)
    | _ => .fail .incompatibleLayout
  | .textString l =>
    match v with
    | .literal (.textString t) => data inputs l.toDataLayout (textLit t)
    | _ => .fail .incompatibleLayout
  | .id l =>
    match v with
    | .literal (.textString t) => ident c inputs l t
    | _ => .fail .incompatibleLayout
  | .sum l =>
    (intro (.root inputs) l.intro).bind fun env =>
    (instDataset env l.dataset).bind fun _ =>
      variants rec graph env v l.variants none
  | .product l =>
    match v with
    | .map m =>
      (intro (.root inputs) l.intro).bind fun env =>
      (instDataset env l.dataset).bind fun _ =>
      (entries rec graph env l.fields m).bind fun _ =>
        requireKeys ref m l.fields
    | _ => .fail .incompatibleLayout
  | .unordered l =>
    match v with
    | .list vs =>
      (intro (.root inputs) l.intro).bind fun env =>
      (instDataset env l.dataset).bind fun _ =>
        items rec graph env l.item vs
    | _ => .fail .incompatibleLayout
  | .ordered l =>
    match v with
    | .list vs =>
      (intro (.root inputs) l.intro).bind fun env =>
      (instDataset env l.dataset).bind fun _ =>
      (DeM.read fun _ => instPattern env l.head).bind fun head =>
        nodes rec graph env l.node l.tail head vs
    | _ => .fail .incompatibleLayout
  | .sized l =>
    match v with
    | .list vs =>
      (intro (.root inputs) l.intro).bind fun env =>
      (instDataset env l.dataset).bind fun _ =>
        sizedItems rec graph env vs l.items
    | _ => .fail .incompatibleLayout
  | .always => .pure ()

/-- `dehydrate_with_ref`, i.e. `dehydrate_with`. `layouts/src/distill/de/mod.rs` L509-570, with `n` bounding the depth
of the recursion. -/
def dehydrateWith (c : DeCtx) : Nat → Rec
  | 0, _, _, _, _ => fun s => (.fuel, s)
  | n + 1, v, graph, ref, inputs =>
    match c.reg ref with
    | none => .fail (.layoutNotFound ref)
    | some l =>
      if l.inputCount.any (· ≠ inputs.length) then
        .fail (.invalidInputCount (l.inputCount.getD 0) inputs.length)
      else
        layout c (dehydrateWith c n) v graph ref inputs l

/-- `Options<G>`. `layouts/src/distill/de/mod.rs` L100-126. The generator is the sequence of the identifiers it
produces. `order` is the order in which `BTreeDataset` iterates over quads (`derive(Ord)` on `InputResource`); it only
matters for the order in which identifiers are drawn from the generator, and is left unspecified. -/
structure DeOptions where
  inputCount : Option Nat
  inputTerm : Nat → Term
  generator : Nat → Term
  order : List (Quad IRes) → List (Quad IRes)

/-- The naming state: the map from resources to terms, and how many identifiers were generated. -/
abbrev Naming := List (IRes × Term) × Nat

/-- The term given to a resource by the map. -/
def findTerm (map : List (IRes × Term)) (r : IRes) : Option Term := (map.find? fun e => e.1 == r).map Prod.snd

/-- Do the assigned terms contradict each other? `layouts/src/distill/de/mod.rs` L445-470: a term assigned to another
term, or two terms assigned to the same resource. -/
def ambiguous (terms : List (IRes × Term)) : Bool :=
  terms.any fun e =>
    match e.1 with
    | .term t => t != e.2
    | r => terms.any fun e' => e'.1 == r && e'.2 != e.2

/-- The entries of `map` built by the loop. `layouts/src/distill/de/mod.rs` L443-470. -/
def initialMap (terms : List (IRes × Term)) : List (IRes × Term) :=
  terms.filter fun e =>
    match e.1 with
    | .term _ => false
    | _ => true

/-- `map_resource`. `layouts/src/distill/de/mod.rs` L472-488. -/
def mapResource (o : DeOptions) (r : IRes) (st : Naming) : Term × Naming :=
  match r with
  | .term t => (t, st)
  | .input i =>
    match findTerm st.1 r with
    | some t => (t, st)
    | none => (o.inputTerm i, (st.1 ++ [(r, o.inputTerm i)], st.2))
  | .anon _ =>
    match findTerm st.1 r with
    | some t => (t, st)
    | none => (o.generator st.2, (st.1 ++ [(r, o.generator st.2)], st.2 + 1))

/-- The closure mapping a quad. `layouts/src/distill/de/mod.rs` L492-499. -/
def mapQuad (o : DeOptions) (q : Quad IRes) (st : Naming) : Quad Term × Naming :=
  let (s, st) := mapResource o q.s st
  let (p, st) := mapResource o q.p st
  let (b, st) := mapResource o q.o st
  match q.g with
  | none => (⟨s, p, b, none⟩, st)
  | some g =>
    let (g, st) := mapResource o g st
    (⟨s, p, b, some g⟩, st)

/-- Mapping each quad in turn. `layouts/src/distill/de/mod.rs` L490-500. -/
def mapQuads (o : DeOptions) : List (Quad IRes) → Naming → List (Quad Term) × Naming
  | [], st => ([], st)
  | q :: qs, st =>
    let (q, st) := mapQuad o q st
    let (qs, st) := mapQuads o qs st
    (q :: qs, st)

/-- Mapping each input in turn. `layouts/src/distill/de/mod.rs` L502-504. -/
def mapInputs (o : DeOptions) : List Nat → Naming → List Term × Naming
  | [], st => ([], st)
  | i :: is, st =>
    let (t, st) := mapResource o (.input i) st
    let (ts, st) := mapInputs o is st
    (t :: ts, st)

/-- Collecting into a `BTreeDataset` removes duplicates. -/
def toSet (qs : List (Quad Term)) : List (Quad Term) := qs.dedup

/-- `dehydrate`, with a bound on the depth of the recursion. `layouts/src/distill/de/mod.rs` L269-507. -/
def dehydrate (c : DeCtx) (n : Nat) (v : Value) (ref : Term) (o : DeOptions) :
    Out DeError (List (Quad Term) × List Term) :=
  match c.reg ref with
  | none => .err (.layoutNotFound ref)
  | some l =>
    let count := l.inputCount.getD (o.inputCount.getD 1)
    match dehydrateWith c n v none ref ((List.range count).map .input) ⟨[], [], 0⟩ with
    | (.ok _, s) =>
      if ambiguous s.terms then .err .termAmbiguity
      else
        let (quads, st) := mapQuads o (o.order s.out) (initialMap s.terms, 0)
        let (values, _) := mapInputs o (List.range count) st
        .ok (toSet quads, values)
    | (.err e, _) => .err e
    | (.panic, _) => .panic
    | (.fuel, _) => .fuel

end Dehydrate

end Verif
