import Verif.SyntaxParse

/-!
# The grammar of layout definitions

Which JSON documents are layout definitions, and which definition each one is: independently of the order in which a parser
looks at the members of an object and of the way it keeps track of them.

`o.lookup k` is the value of the member `k` of the object `o`; in an object that satisfies `Members` it is the only one.
-/

namespace Verif

/-- No two members have the same name, and every name is one of `allowed`. -/
def Members (o : JsonObject) (allowed : List String) : Prop :=
  (o.map Prod.fst).Nodup ∧ ∀ e ∈ o, e.1 ∈ allowed

/-- An optional member. -/
def OptDoc {α : Type} (P : Json → α → Prop) : Option Json → Option α → Prop
  | none, none => True
  | some j, some a => P j a
  | _, _ => False

/-- A member with a default value. -/
def DefaultDoc {α : Type} (P : Json → α → Prop) (dflt : α) : Option Json → α → Prop
  | none, a => a = dflt
  | some j, a => P j a

/-- A string. -/
def StringDoc (j : Json) (s : String) : Prop := j = .string s

/-- A boolean. -/
def BoolDoc (j : Json) (b : Bool) : Prop := j = .boolean b

/-- An array of which each item describes an element. -/
def ListDoc {α : Type} (P : Json → α → Prop) (j : Json) (l : List α) : Prop :=
  ∃ js, j = .array js ∧ List.Forall₂ P js l

/-- An array, or a single element written without brackets. -/
def OneOrManyDoc {α : Type} (P : Json → α → Prop) (j : Json) : OneOrMany α → Prop
  | .one a => (∀ js, j ≠ .array js) ∧ P j a
  | .many l => ListDoc P j l

/-- An object used as a map: the last member of each name counts. -/
def MapDoc {κ α : Type} [DecidableEq κ] (le : κ → κ → Bool) (K : String → κ → Prop) (P : Json → α → Prop) (j : Json)
    (m : List (κ × α)) : Prop :=
  ∃ (o : JsonObject) (l : List (κ × α)), j = .object o ∧ List.Forall₂ (fun e r => K e.1 r.1 ∧ P e.2 r.2) o l ∧ m = bmapCollect le l

/-- An IRI reference. -/
def IriDoc (lib : ParseLib) (j : Json) (i : CompactIri) : Prop := j = .string i ∧ lib.isIriRef i = true

/-- A pattern: a blank node identifier is a variable, an IRI reference is an IRI, an object is a literal with either a type
or a language. -/
inductive PatternDoc (lib : ParseLib) : Json → SPattern → Prop
  | var {s x : String} (h : lib.isBlankId s = true) (hx : x.toList = s.toList.drop 2) : PatternDoc lib (.string s) (.var x)
  | iri {s : String} (h : lib.isBlankId s = false) (hi : lib.isIriRef s = true) : PatternDoc lib (.string s) (.iri s)
  | typed {o : JsonObject} {v ty : String} (hm : Members o ["type", "value"])
      (ht : o.lookup "type" = some (.string ty)) (hi : lib.isIriRef ty = true) (hv : o.lookup "value" = some (.string v)) :
      PatternDoc lib (.object o) (.literal v (.iri ty))
  | language {o : JsonObject} {v tag : String} (hm : Members o ["language", "value"])
      (ht : o.lookup "language" = some (.string tag)) (hl : lib.isLangTag tag = true)
      (hv : o.lookup "value" = some (.string v)) :
      PatternDoc lib (.object o) (.literal v (.language tag))

/-- A quad: an array of three or four patterns. -/
inductive QuadDoc (lib : ParseLib) : Json → Quad SPattern → Prop
  | three {js jp jo : Json} {s p o : SPattern} (hs : PatternDoc lib js s) (hp : PatternDoc lib jp p) (ho : PatternDoc lib jo o) :
      QuadDoc lib (.array [js, jp, jo]) ⟨s, p, o, none⟩
  | four {js jp jo jg : Json} {s p o g : SPattern} (hs : PatternDoc lib js s) (hp : PatternDoc lib jp p)
      (ho : PatternDoc lib jo o) (hg : PatternDoc lib jg g) : QuadDoc lib (.array [js, jp, jo, jg]) ⟨s, p, o, some g⟩

/-- A dataset: an array of quads. -/
def DatasetDoc (lib : ParseLib) : Json → List (Quad SPattern) → Prop := ListDoc (QuadDoc lib)

/-- `s` is an optional sign followed by the digits of `z`, and `z` fits in 64 bits. -/
def I64Doc (s : List Char) (z : Int) : Prop :=
  ∃ (neg : Bool) (ds : List Char), (s = ds ∧ neg = false ∨ s = '+' :: ds ∧ neg = false ∨ s = '-' :: ds ∧ neg = true) ∧
    ds ≠ [] ∧ (∀ c ∈ ds, c.isDigit = true) ∧
    z = (if neg then -(Nat.ofDigitChars 10 ds 0 : Int) else Nat.ofDigitChars 10 ds 0) ∧ -2 ^ 63 ≤ z ∧ z < 2 ^ 63

/-- The value of an extra property. -/
inductive ResourceDoc (lib : ParseLib) : Json → SResource → Prop
  | boolean (b : Bool) : ResourceDoc lib (.boolean b) (.boolean b)
  | number {s : List Char} {z : Int} (h : I64Doc s z) : ResourceDoc lib (.number s) (.number z)
  | string (s : String) : ResourceDoc lib (.string s) (.string s)
  | typed {o : JsonObject} {v ty : String} (hm : Members o ["type", "value"])
      (ht : o.lookup "type" = some (.string ty)) (hi : lib.isIriRef ty = true) (hv : o.lookup "value" = some (.string v)) :
      ResourceDoc lib (.object o) (.typed v ty)

/-- A regular expression, written as a string. -/
def RegExpDoc (j : Json) (e : RegExp) : Prop :=
  ∃ s : String, j = .string s ∧ RegExp.parse (s.toList.map RegExp.charNumber) = .ok e

/-- A constant: the tree of a JSON document. -/
def ConstDoc (j : Json) (v : Value) : Prop := j.toValue = .ok v

/-- The graph of a format: a pattern; `null` stands for no graph. -/
inductive GraphDoc (lib : ParseLib) : Json → Option (Option SPattern) → Prop
  | null : GraphDoc lib .null none
  | pattern {j : Json} {p : SPattern} (h : PatternDoc lib j p) : GraphDoc lib j (some (some p))

/-- The members that every layout has. -/
def headerMembers : List String := ["type", "base", "prefixes", "id", "input", "intro", "dataset", "extra"]

/-- The members of the header. -/
structure HeaderDoc (lib : ParseLib) (o : JsonObject) (h : LayoutHeader) : Prop where
  base : OptDoc (IriDoc lib) (o.lookup "base") h.base
  prefixes : DefaultDoc (MapDoc strLe Eq (IriDoc lib)) [] (o.lookup "prefixes") h.prefixes
  id : OptDoc (IriDoc lib) (o.lookup "id") h.id
  input : DefaultDoc (OneOrManyDoc StringDoc) (.one "self") (o.lookup "input") h.input
  intro : DefaultDoc (OneOrManyDoc StringDoc) (.many []) (o.lookup "intro") h.intro
  dataset : DefaultDoc (DatasetDoc lib) [] (o.lookup "dataset") h.dataset
  extra : DefaultDoc (MapDoc lib.leIri (fun k i => k = i ∧ lib.isIriRef i = true) (ResourceDoc lib)) [] (o.lookup "extra")
    h.extra

/-- The members of a layout of the kind `ty` other than those of the header. -/
structure KindDoc (lib : ParseLib) (o : JsonObject) (ty : String) (members : List String) (h : LayoutHeader) : Prop where
  members : Members o (members ++ headerMembers)
  type : o.lookup "type" = some (.string ty)
  header : HeaderDoc lib o h

mutual
/-- A layout. -/
inductive LayoutObj (lib : ParseLib) : JsonObject → SLayout → Prop
  | unit {o h k} (hk : KindDoc lib o "unit" ["const"] h)
      (hc : DefaultDoc ConstDoc (.literal .unit) (o.lookup "const") k) : LayoutObj lib o (.unit h k)
  | boolean {o h r dt} (hk : KindDoc lib o "boolean" ["resource", "datatype"] h)
      (hr : OptDoc (PatternDoc lib) (o.lookup "resource") r) (hd : OptDoc (IriDoc lib) (o.lookup "datatype") dt) :
      LayoutObj lib o (.boolean h r dt)
  | number {o h r dt} (hk : KindDoc lib o "number" ["resource", "datatype"] h)
      (hr : OptDoc (PatternDoc lib) (o.lookup "resource") r) (hd : OptDoc (IriDoc lib) (o.lookup "datatype") (some dt)) :
      LayoutObj lib o (.number h r dt)
  | byteString {o h r dt} (hk : KindDoc lib o "bytes" ["resource", "datatype"] h)
      (hr : OptDoc (PatternDoc lib) (o.lookup "resource") r) (hd : OptDoc (IriDoc lib) (o.lookup "datatype") (some dt)) :
      LayoutObj lib o (.byteString h r dt)
  | textString {o h e r dt} (hk : KindDoc lib o "string" ["pattern", "resource", "datatype"] h)
      (he : OptDoc RegExpDoc (o.lookup "pattern") e)
      (hr : OptDoc (PatternDoc lib) (o.lookup "resource") r) (hd : OptDoc (IriDoc lib) (o.lookup "datatype") dt) :
      LayoutObj lib o (.textString h e r dt)
  | id {o h e r} (hk : KindDoc lib o "id" ["pattern", "resource"] h)
      (he : OptDoc RegExpDoc (o.lookup "pattern") e) (hr : OptDoc (PatternDoc lib) (o.lookup "resource") r) :
      LayoutObj lib o (.id h e r)
  | record {o h fs} (hk : KindDoc lib o "record" ["fields"] h) (hf : FieldsDoc lib (o.lookup "fields") fs) :
      LayoutObj lib o (.product h fs)
  | sum {o h vs} (hk : KindDoc lib o "sum" ["variants"] h) (hv : VariantsDoc lib (o.lookup "variants") vs) :
      LayoutObj lib o (.sum h vs)
  | list {o h j n hd tl} (hk : KindDoc lib o "list" ["node", "head", "tail"] h)
      (hj : o.lookup "node" = some j) (hn : NodeDoc lib j n)
      (hh : DefaultDoc (PatternDoc lib) (.var "self") (o.lookup "head") hd)
      (ht : DefaultDoc (PatternDoc lib) (.iri "http://www.w3.org/1999/02/22-rdf-syntax-ns#nil") (o.lookup "tail") tl) :
      LayoutObj lib o (.ordered h n hd tl)
  | set {o h j i} (hk : KindDoc lib o "set" ["item"] h) (hj : o.lookup "item" = some j) (hi : ItemDoc lib j i) :
      LayoutObj lib o (.unordered h i)
  | tuple {o h is} (hk : KindDoc lib o "tuple" ["items"] h) (hi : ItemsDoc lib (o.lookup "items") is) :
      LayoutObj lib o (.sized h is)
  | union {o h} (hk : KindDoc lib o "union" [] h) : LayoutObj lib o (.union h)
  | intersection {o h} (hk : KindDoc lib o "intersection" [] h) : LayoutObj lib o (.intersection h)

/-- A reference to a layout, or a nested layout. -/
inductive RefDoc (lib : ParseLib) : Json → SLayoutRef → Prop
  | ref {i} (h : lib.isIriRef i = true) : RefDoc lib (.string i) (.ref i)
  | layout {o l} (h : LayoutObj lib o l) : RefDoc lib (.object o) (.layout l)

/-- A format: a layout, or an object without `type`; the input is `dflt` by default. -/
inductive FormatDoc (lib : ParseLib) : String → Json → SFormat → Prop
  | ref {dflt i} (h : lib.isIriRef i = true) : FormatDoc lib dflt (.string i) (.layout (.ref i))
  | layout {dflt o l} (h : LayoutObj lib o l) : FormatDoc lib dflt (.object o) (.layout (.layout l))
  | format {dflt o j r input graph} (hm : Members o ["layout", "input", "graph"])
      (hj : o.lookup "layout" = some j) (hr : RefDoc lib j r)
      (hi : DefaultDoc (OneOrManyDoc (PatternDoc lib)) (.one (.var dflt)) (o.lookup "input") input)
      (hg : DefaultDoc (GraphDoc lib) none (o.lookup "graph") graph) :
      FormatDoc lib dflt (.object o) (.format r input graph)

/-- A field of a record. -/
inductive FieldDoc (lib : ParseLib) : Json → SField → Prop
  | mk {o intro j v ds p req} (hm : Members o ["intro", "value", "dataset", "property", "required"])
      (hi : DefaultDoc (OneOrManyDoc StringDoc) (.one "value") (o.lookup "intro") intro)
      (hj : o.lookup "value" = some j) (hv : FormatDoc lib "value" j v)
      (hd : DefaultDoc (DatasetDoc lib) [] (o.lookup "dataset") ds)
      (hp : OptDoc (PatternDoc lib) (o.lookup "property") p)
      (hr : DefaultDoc BoolDoc false (o.lookup "required") req) : FieldDoc lib (.object o) (.mk intro v ds p req)

/-- The fields of a record. -/
inductive FieldsDoc (lib : ParseLib) : Option Json → List (Value × SField) → Prop
  | absent : FieldsDoc lib none []
  | present {es fs} (h : FieldEntries lib es fs) : FieldsDoc lib (some (.object es)) (bmapCollect Value.le fs)

/-- The members of `fields`. -/
inductive FieldEntries (lib : ParseLib) : JsonObject → List (Value × SField) → Prop
  | nil : FieldEntries lib [] []
  | cons {k j f es fs} (h : FieldDoc lib j f) (hs : FieldEntries lib es fs) :
      FieldEntries lib ((k, j) :: es) ((Value.text k, f) :: fs)

/-- A variant of a sum. -/
inductive VariantDoc (lib : ParseLib) : Json → SVariant → Prop
  | mk {o intro j v ds} (hm : Members o ["intro", "value", "dataset"])
      (hi : DefaultDoc (OneOrManyDoc StringDoc) (.many []) (o.lookup "intro") intro)
      (hj : o.lookup "value" = some j) (hv : FormatDoc lib "self" j v)
      (hd : DefaultDoc (DatasetDoc lib) [] (o.lookup "dataset") ds) : VariantDoc lib (.object o) (.mk intro v ds)

/-- The variants of a sum. -/
inductive VariantsDoc (lib : ParseLib) : Option Json → List (String × SVariant) → Prop
  | absent : VariantsDoc lib none []
  | present {es vs} (h : VariantEntries lib es vs) : VariantsDoc lib (some (.object es)) (bmapCollect strLe vs)

/-- The members of `variants`. -/
inductive VariantEntries (lib : ParseLib) : JsonObject → List (String × SVariant) → Prop
  | nil : VariantEntries lib [] []
  | cons {k j v es vs} (h : VariantDoc lib j v) (hs : VariantEntries lib es vs) :
      VariantEntries lib ((k, j) :: es) ((k, v) :: vs)

/-- An item of a set or tuple. -/
inductive ItemDoc (lib : ParseLib) : Json → SItem → Prop
  | mk {o intro j v ds p} (hm : Members o ["intro", "value", "dataset", "property"])
      (hi : DefaultDoc (OneOrManyDoc StringDoc) (.one "value") (o.lookup "intro") intro)
      (hj : o.lookup "value" = some j) (hv : FormatDoc lib "value" j v)
      (hd : DefaultDoc (DatasetDoc lib) [] (o.lookup "dataset") ds)
      (hp : OptDoc (PatternDoc lib) (o.lookup "property") p) : ItemDoc lib (.object o) (.mk intro v ds p)

/-- The items of a tuple. -/
inductive ItemsDoc (lib : ParseLib) : Option Json → List SItem → Prop
  | absent : ItemsDoc lib none []
  | present {js is} (h : ItemList lib js is) : ItemsDoc lib (some (.array js)) is

/-- The elements of `items`. -/
inductive ItemList (lib : ParseLib) : List Json → List SItem → Prop
  | nil : ItemList lib [] []
  | cons {j i js is} (h : ItemDoc lib j i) (hs : ItemList lib js is) : ItemList lib (j :: js) (i :: is)

/-- A node of a list: a layout, or an object without `type`. -/
inductive NodeDoc (lib : ParseLib) : Json → SNode → Prop
  | ref {i} (h : lib.isIriRef i = true) : NodeDoc lib (.string i) (.layout (.ref i))
  | layout {o l} (h : LayoutObj lib o l) : NodeDoc lib (.object o) (.layout (.layout l))
  | node {o head rest intro j v ds} (hm : Members o ["head", "rest", "intro", "value", "dataset"])
      (hh : DefaultDoc StringDoc "head" (o.lookup "head") head)
      (hr : DefaultDoc StringDoc "rest" (o.lookup "rest") rest)
      (hi : DefaultDoc (OneOrManyDoc StringDoc) (.one "value") (o.lookup "intro") intro)
      (hj : o.lookup "value" = some j) (hv : FormatDoc lib "value" j v)
      (hd : OptDoc (DatasetDoc lib) (o.lookup "dataset") ds) : NodeDoc lib (.object o) (.node head rest intro v ds)
end

/-- A layout definition: an object, or one of the two trivial layouts. -/
inductive LayoutDoc (lib : ParseLib) : Json → SLayout → Prop
  | bool (b : Bool) : LayoutDoc lib (.boolean b) (.bool b)
  | object {o : JsonObject} {l : SLayout} (h : LayoutObj lib o l) : LayoutDoc lib (.object o) l

end Verif
