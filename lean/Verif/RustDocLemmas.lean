import Verif.RustDocSpec
import Verif.RustEmitLemmas
import Verif.SyntaxParseMain

/-!
# Lemmas for C74
-/

set_option linter.unusedSectionVars false
set_option linter.unusedSimpArgs false

namespace Verif

theorem Out.bind_assoc' {ε α β γ : Type} (x : Out ε α) (f : α → Out ε β) (g : β → Out ε γ) :
    (x.bind f).bind g = x.bind fun a => (f a).bind g := by cases x <;> rfl

namespace Rust

variable {α : Type}

/-! ## Loops over attributes -/

/-- One setting after the other. -/
def runAll : List (α → Out MacroError α) → α → Out MacroError α
  | [], a => .ok a
  | f :: fs, a => (f a).bind (runAll fs)

theorem runAll_append (l l' : List (α → Out MacroError α)) (a : α) : runAll (l ++ l') a = (runAll l a).bind (runAll l') := by
  induction l generalizing a with
  | nil => rfl
  | cons f l ih =>
    simp only [List.cons_append, runAll, Out.bind_assoc']
    congr 1
    funext b
    exact ih b

/-- The tokens of an argument are read by a step that does `f`. -/
def SegStep (step : α → Tok → List Tok → Out MacroError (α × List Tok)) (seg : List Tok) (f : α → Out MacroError α) : Prop :=
  ∃ t ts, seg = t :: ts ∧ ∀ a more, step a t (ts ++ more) = (f a).bind fun b => .ok (b, more)

theorem sep_eq (l : List (List Tok)) : sep l = commas l := by
  induction l with
  | nil => rfl
  | cons x l ih =>
    cases l with
    | nil => rfl
    | cons y l => simp only [sep, commas, ih]

theorem attrLoop_run {step : α → Tok → List Tok → Out MacroError (α × List Tok)} {segs : List (List Tok)}
    {fs : List (α → Out MacroError α)} (h : List.Forall₂ (SegStep step) segs fs) :
    ∀ n a, (sep segs).length ≤ n → attrLoop step n a (sep segs) = runAll fs a := by
  induction h with
  | nil => intro n a _; cases n <;> rfl
  | @cons seg f segs fs hs h ih =>
    intro n a hn
    obtain ⟨t, ts, rfl, hs⟩ := hs
    cases segs with
    | nil =>
      cases h
      simp only [sep, List.length_cons] at hn ⊢
      obtain ⟨m, rfl⟩ : ∃ m, n = m + 1 := ⟨n - 1, by omega⟩
      have := hs a []
      rw [List.append_nil] at this
      simp only [attrLoop, this, Out.bind_assoc', Out.bind_ok, runAll]
    | cons s segs =>
      simp only [sep, List.cons_append, List.length_cons, List.length_append] at hn ⊢
      obtain ⟨m, rfl⟩ : ∃ m, n = m + 1 := ⟨n - 1, by omega⟩
      simp only [attrLoop, hs, Out.bind_assoc', Out.bind_ok, runAll]
      congr 1
      funext b
      exact ih m b (by omega)

theorem parseAttrs_run {step : α → Tok → List Tok → Out MacroError (α × List Tok)} {segs : List (List Tok)}
    {fs : List (α → Out MacroError α)} (h : List.Forall₂ (SegStep step) segs fs) (a : α) :
    parseAttrs step (attr segs) a = runAll fs a := by
  simp only [parseAttrs, attr, if_true, attrLoop_run h _ a (Nat.le_refl _)]
  cases runAll fs a <;> rfl

theorem arg_run {β : Type} {step : α → Tok → List Tok → Out MacroError (α × List Tok)} {name : String} (o : Option β) (toks : β → List Tok)
    {f : List Tok → α → Out MacroError α} (h : ∀ ts, SegStep step [.ident name, .group ts] (f ts)) :
    List.Forall₂ (SegStep step) (arg name (o.map toks)) (o.toList.map fun x => f (toks x)) := by
  cases o with
  | none => exact .nil
  | some x => exact .cons (h _) .nil

/-- An optional text. -/
def optRead {β γ : Type} (p : β → Out MacroError γ) : Option β → Out MacroError (Option γ)
  | none => .ok none
  | some x => (p x).bind fun a => .ok (some a)

theorem optRead_ok {β γ : Type} {p : β → Out MacroError γ} {P : Json → γ → Prop} {f : β → Json} (h : ∀ x a, p x = .ok a ↔ P (f x) a)
    (o : Option β) (r : Option γ) : optRead p o = .ok r ↔ OptDoc P (o.map f) r := by
  cases o with
  | none =>
    cases r with
    | none => exact ⟨fun _ => trivial, fun _ => rfl⟩
    | some a =>
      constructor
      · intro h'
        injection h' with h'
        cases h'
      · exact fun h' => absurd h' id
  | some x =>
    simp only [optRead, Out.bind_eq_ok]
    constructor
    · rintro ⟨a, h1, h2⟩
      injection h2 with h2
      subst h2
      exact (h x a).1 h1
    · intro h'
      cases r with
      | none => exact absurd h' id
      | some a => exact ⟨a, (h x a).2 h', rfl⟩

theorem default_ok {β γ : Type} {p : β → Out MacroError γ} {P : Json → γ → Prop} {f : β → Json} (h : ∀ x a, p x = .ok a ↔ P (f x) a)
    (d : γ) (o : Option β) (r : γ) : (∃ a, optRead p o = .ok a ∧ r = a.getD d) ↔ DefaultDoc P d (o.map f) r := by
  cases o with
  | none =>
    constructor
    · rintro ⟨a, h1, rfl⟩
      injection h1 with h1
      subst h1
      rfl
    · exact fun h => ⟨none, rfl, h⟩
  | some x =>
    simp only [optRead, Out.bind_eq_ok]
    constructor
    · rintro ⟨a, ⟨b, h1, h2⟩, rfl⟩
      injection h2 with h2
      subst h2
      exact (h x b).1 h1
    · intro h'
      exact ⟨some r, ⟨r, (h x r).2 h', rfl⟩, rfl⟩

/-! ## Texts -/

section
variable {lib : ParseLib}

/-- An IRI reference. -/
def iriText (lib : ParseLib) (s : String) : Out MacroError CompactIri := if lib.isIriRef s then .ok s else .err (.invalidCompactIri s)

theorem iriText_ok (s : String) (i : CompactIri) : iriText lib s = .ok i ↔ IriDoc lib (.string s) i := by
  unfold iriText IriDoc
  split
  · rename_i h
    constructor
    · intro h'
      injection h' with h'
      subst h'
      exact ⟨rfl, h⟩
    · rintro ⟨h', -⟩
      injection h' with h'
      rw [h']
  · rename_i h
    constructor
    · intro h'; cases h'
    · rintro ⟨h', h''⟩
      injection h' with h'
      subst h'
      exact absurd h'' h

theorem parseCompactIri_str (s : String) : parseCompactIri lib.toIriLib [.str s] = iriText lib s := rfl

theorem parsePattern_ok (hl : MacroLib lib.toIriLib) (s : String) (p : SPattern) :
    parsePattern lib.toIriLib s = .ok p ↔ PatternDoc lib (.string s) p := by
  unfold parsePattern
  split
  · rename_i h
    obtain ⟨l, rfl, h1, h2⟩ := hl.blank s h
    have hs : blankSuffix ("_:" ++ l) = l := by simp [blankSuffix]
    rw [hs, if_pos ((isVarName_iff l).2 ⟨h1, h2⟩)]
    constructor
    · intro h'
      injection h' with h'
      subst h'
      exact .var h (by simp)
    · intro h'
      cases h' with
      | var _ hx =>
        have : l.toList = _ := (by simpa using hx.symm)
        rw [String.toList_inj.1 this]
      | iri h'' _ => rw [h] at h''; cases h''
  · rename_i h
    split
    · rename_i hi
      constructor
      · intro h'
        injection h' with h'
        subst h'
        exact .iri (by simpa using h) hi
      · intro h'
        cases h' with
        | var h'' _ => exact absurd h'' h
        | iri _ _ => rfl
    · rename_i hi
      constructor
      · intro h'; cases h'
      · intro h'
        cases h' with
        | var h'' _ => exact absurd h'' h
        | iri _ h'' => exact absurd h'' hi

theorem texts_eq (l : List String) : texts l = strings l := sep_eq _

theorem parseList_texts (l : List String) : parseList stringToken (texts l) = .ok l := by rw [texts_eq, parseList_strings]

theorem strings_doc (l : List String) (r : List String) : List.Forall₂ StringDoc (l.map Json.string) r ↔ l = r := by
  induction l generalizing r with
  | nil => cases r <;> simp
  | cons s l ih =>
    cases r with
    | nil => simp
    | cons t r => simp [ih, StringDoc]

theorem oneOrMany_doc {β : Type} {P : Json → β → Prop} (l : List String) (r : OneOrMany β) :
    OneOrManyDoc P (textsJson l) r ↔ ∃ bs, List.Forall₂ (fun s b => P (.string s) b) l bs ∧ r = oneOrMany bs := by
  match l with
  | [s] =>
    simp only [textsJson]
    cases r with
    | one b =>
      simp only [OneOrManyDoc]
      constructor
      · rintro ⟨-, h⟩
        exact ⟨[b], .cons h .nil, rfl⟩
      · rintro ⟨bs, h1, h2⟩
        cases h1 with
        | cons h h' =>
          cases h'
          injection h2 with h2
          subst h2
          exact ⟨by simp, h⟩
    | many bs =>
      simp only [OneOrManyDoc, ListDoc]
      constructor
      · rintro ⟨js, h, -⟩
        cases h
      · rintro ⟨bs, h1, h2⟩
        cases h1 with
        | cons h h' =>
          cases h'
          cases h2
  | [] =>
    simp only [textsJson]
    cases r with
    | one b =>
      simp only [OneOrManyDoc]
      constructor
      · rintro ⟨h, -⟩
        exact absurd rfl (h _)
      · rintro ⟨bs, h1, h2⟩
        cases h1
        cases h2
    | many bs =>
      simp only [OneOrManyDoc, ListDoc]
      constructor
      · rintro ⟨js, h, h'⟩
        cases h
        cases h'
        exact ⟨[], .nil, rfl⟩
      · rintro ⟨bs, h1, h2⟩
        cases h1
        injection h2 with h2
        subst h2
        exact ⟨[], rfl, .nil⟩
  | s :: t :: l =>
    simp only [textsJson]
    cases r with
    | one b =>
      simp only [OneOrManyDoc]
      constructor
      · rintro ⟨h, -⟩
        exact absurd rfl (h _)
      · rintro ⟨bs, h1, h2⟩
        cases h1 with
        | cons _ h1 =>
          cases h1
          cases h2
    | many bs =>
      simp only [OneOrManyDoc, ListDoc]
      constructor
      · rintro ⟨js, h, h'⟩
        injection h with h
        subst h
        rw [List.forall₂_map_left_iff] at h'
        refine ⟨bs, h', ?_⟩
        cases h' with
        | cons _ h' => cases h'; rfl
      · rintro ⟨bs', h1, h2⟩
        have : bs = bs' := by
          cases h1 with
          | cons _ h1 => cases h1; injection h2
        subst this
        exact ⟨_, rfl, List.forall₂_map_left_iff.2 h1⟩

theorem forall₂_eq_iff {β : Type} (l r : List β) : List.Forall₂ (fun a b => a = b) l r ↔ l = r := by
  induction l generalizing r with
  | nil => cases r <;> simp
  | cons s l ih =>
    cases r with
    | nil => simp
    | cons t r => simp [ih]

theorem names_doc (l : List String) (r : OneOrMany String) : OneOrManyDoc StringDoc (textsJson l) r ↔ r = oneOrMany l := by
  rw [oneOrMany_doc]
  have : ∀ bs, List.Forall₂ (fun s b => StringDoc (.string s) b) l bs ↔ l = bs := fun bs => by
    rw [← strings_doc, List.forall₂_map_left_iff]
  simp only [this]
  exact ⟨by rintro ⟨bs, rfl, h⟩; exact h, fun h => ⟨l, rfl, h⟩⟩

theorem names_default (o : Option (List String)) (d r : OneOrMany String) :
    DefaultDoc (OneOrManyDoc StringDoc) d (o.map textsJson) r ↔ r = (o.map oneOrMany).getD d := by
  cases o with
  | none => exact Iff.rfl
  | some l => exact names_doc l r

theorem patternToken_str (s : String) : patternToken lib.toIriLib (.str s) = parsePattern lib.toIriLib s := rfl

theorem patternList (l : List String) :
    parseList (patternToken lib.toIriLib) (texts l) = Out.mapM' (parsePattern lib.toIriLib) l := by
  have : texts l = commas ((l.map Tok.str).map fun t => [t]) := by rw [texts_eq, strings, List.map_map]; rfl
  rw [this, parseList_commas]
  induction l with
  | nil => rfl
  | cons s l ih =>
    simp only [List.map_cons, Out.mapM', patternToken_str]
    rw [ih (by rw [texts_eq, strings, List.map_map]; rfl)]

/-- A quad. -/
def quadText (lib : IriLib) (q : QuadDecl) : Out MacroError (Quad SPattern) :=
  (parsePattern lib q.s).bind fun s => (parsePattern lib q.p).bind fun p => (parsePattern lib q.o).bind fun o =>
  (optRead (parsePattern lib) q.g).bind fun g => .ok ⟨s, p, o, g⟩

theorem quadToken_tok (lib : IriLib) (q : QuadDecl) : quadToken lib q.tok = quadText lib q := by
  obtain ⟨s, p, o, g⟩ := q
  cases g with
  | none => simp [QuadDecl.tok, texts, sep, quadToken, quadText, optRead, patternToken, stringToken]
  | some g =>
    simp [QuadDecl.tok, texts, sep, quadToken, quadText, optRead, patternToken, stringToken, Out.bind_assoc']

theorem quadText_ok (hl : MacroLib lib.toIriLib) (q : QuadDecl) (r : Quad SPattern) :
    quadText lib.toIriLib q = .ok r ↔ QuadDoc lib q.json r := by
  obtain ⟨s, p, o, g⟩ := q
  simp only [quadText, Out.bind_eq_ok, parsePattern_ok hl, optRead_ok (parsePattern_ok hl)]
  constructor
  · rintro ⟨s', hs, p', hp, o', ho, g', hg, h⟩
    injection h with h
    subst h
    cases g with
    | none =>
      cases g' with
      | none => exact .three hs hp ho
      | some _ => exact absurd hg id
    | some g =>
      cases g' with
      | none => exact absurd hg id
      | some g' => exact .four hs hp ho hg
  · intro h
    cases g with
    | none =>
      simp only [QuadDecl.json, Option.toList_none, List.append_nil, List.map_cons, List.map_nil] at h
      cases h with
      | three hs hp ho => exact ⟨_, hs, _, hp, _, ho, none, trivial, rfl⟩
    | some g =>
      simp only [QuadDecl.json, Option.toList_some, List.cons_append, List.nil_append, List.map_cons, List.map_nil] at h
      cases h with
      | four hs hp ho hg => exact ⟨_, hs, _, hp, _, ho, some _, hg, rfl⟩

/-- A dataset. -/
def datasetText (lib : IriLib) (l : List QuadDecl) : Out MacroError (List (Quad SPattern)) := Out.mapM' (quadText lib) l

theorem parseList_quads (lib : IriLib) (l : List QuadDecl) : parseList (quadToken lib) (quadToks l) = datasetText lib l := by
  have : quadToks l = commas ((l.map QuadDecl.tok).map fun t => [t]) := by rw [quadToks, sep_eq, List.map_map]; rfl
  rw [this, parseList_commas]
  clear this
  unfold datasetText
  induction l with
  | nil => rfl
  | cons q l ih => simp only [List.map_cons, Out.mapM', quadToken_tok, ih]

theorem datasetText_ok (hl : MacroLib lib.toIriLib) (l : List QuadDecl) (r : List (Quad SPattern)) :
    datasetText lib.toIriLib l = .ok r ↔ DatasetDoc lib (quadsJson l) r := by
  unfold datasetText DatasetDoc quadsJson ListDoc
  rw [Out.mapM'_eq_ok]
  simp only [quadText_ok hl]
  constructor
  · exact fun h => ⟨_, rfl, List.forall₂_map_left_iff.2 h⟩
  · rintro ⟨js, h, h'⟩
    injection h with h
    subst h
    exact List.forall₂_map_left_iff.1 h'

/-- A list of bindings. -/
def bindingsText (lib : ParseLib) (l : List (String × String)) : Out MacroError (List (String × CompactIri)) :=
  Out.mapM' (fun e => (iriText lib e.2).bind fun i => .ok (e.1, i)) l

theorem parseBindings_eq (l : List (String × String)) :
    parseBindings lib.toIriLib (sep (l.map fun e => [.str e.1, .punct '=', .str e.2])) = bindingsText lib l := by
  unfold bindingsText
  induction l with
  | nil => rfl
  | cons e l ih =>
    cases l with
    | nil =>
      simp only [List.map_cons, List.map_nil, sep, parseBindings, stringToken, Out.bind_ok, Out.mapM', iriText]
      split <;> rfl
    | cons e' l =>
      simp only [List.map_cons, sep, List.cons_append, List.nil_append, parseBindings, stringToken, Out.bind_ok] at ih ⊢
      rw [ih]
      simp only [Out.mapM', iriText]
      split <;> rfl

theorem bindings_doc (l : List (String × String)) (m : List (String × CompactIri)) :
    (∃ bs, bindingsText lib l = .ok bs ∧ m = bmapCollect strLe bs) ↔
      MapDoc strLe Eq (IriDoc lib) (.object (l.map fun e => (e.1, .string e.2))) m := by
  have key : ∀ bs, bindingsText lib l = .ok bs ↔
      List.Forall₂ (fun (e : String × Json) (r : String × CompactIri) => e.1 = r.1 ∧ IriDoc lib e.2 r.2)
        (l.map fun e => (e.1, Json.string e.2)) bs := by
    intro bs
    unfold bindingsText
    rw [Out.mapM'_eq_ok, List.forall₂_map_left_iff]
    have : ∀ (e : String × String) (r : String × CompactIri), ((iriText lib e.2).bind fun i => Out.ok (e.1, i)) = .ok r ↔
        e.1 = r.1 ∧ IriDoc lib (.string e.2) r.2 := by
      intro e r
      rw [Out.bind_eq_ok, ← iriText_ok]
      constructor
      · rintro ⟨i, h1, h2⟩
        injection h2 with h2
        subst h2
        exact ⟨rfl, h1⟩
      · rintro ⟨h1, h2⟩
        exact ⟨r.2, h2, by rw [h1]⟩
    simp only [this]
  unfold MapDoc
  constructor
  · rintro ⟨bs, h1, h2⟩
    exact ⟨_, bs, rfl, (key bs).1 h1, h2⟩
  · rintro ⟨o, bs, h, h1, h2⟩
    injection h with h
    subst h
    exact ⟨bs, (key bs).2 h1, h2⟩

end

/-! ## The attributes of a type -/

section
variable (lib : IriLib)

/-- The settings of a type, as steps. -/
def setKind (k : Kind) (a : TypeAttrs) : Out MacroError TypeAttrs := (replace a.kind k).bind fun x => .ok { a with kind := x }
def setBase (ts : List Tok) (a : TypeAttrs) : Out MacroError TypeAttrs :=
  (parseCompactIri lib ts).bind fun v => (replace a.base v).bind fun x => .ok { a with base := x }
def setPrefix (ts : List Tok) (a : TypeAttrs) : Out MacroError TypeAttrs :=
  (parseBindings lib ts).bind fun v => .ok { a with prefixes := v.foldl (fun acc b => bmapInsert strLe b.1 b.2 acc) a.prefixes }
def setInput (ts : List Tok) (a : TypeAttrs) : Out MacroError TypeAttrs :=
  (parseList stringToken ts).bind fun v => (replace a.input v).bind fun x => .ok { a with input := x }
def setIntro (ts : List Tok) (a : TypeAttrs) : Out MacroError TypeAttrs :=
  (parseList stringToken ts).bind fun v => (replace a.intro v).bind fun x => .ok { a with intro := x }
def setDataset (ts : List Tok) (a : TypeAttrs) : Out MacroError TypeAttrs :=
  (parseList (quadToken lib) ts).bind fun v => (replace a.dataset v).bind fun x => .ok { a with dataset := x }
def setDatatype (ts : List Tok) (a : TypeAttrs) : Out MacroError TypeAttrs :=
  (parseCompactIri lib ts).bind fun v => (replace a.datatype v).bind fun x => .ok { a with datatype := x }
def setResource (ts : List Tok) (a : TypeAttrs) : Out MacroError TypeAttrs :=
  ((parseString ts).bind (parsePattern lib)).bind fun v => (replace a.resource v).bind fun x => .ok { a with resource := x }
def setHead (ts : List Tok) (a : TypeAttrs) : Out MacroError TypeAttrs :=
  ((parseString ts).bind (parsePattern lib)).bind fun v => (replace a.head v).bind fun x => .ok { a with head := x }
def setTail (ts : List Tok) (a : TypeAttrs) : Out MacroError TypeAttrs :=
  ((parseString ts).bind (parsePattern lib)).bind fun v => (replace a.tail v).bind fun x => .ok { a with tail := x }

theorem seg_base (ts : List Tok) : SegStep (typeStep lib) [.ident "base", .group ts] (setBase lib ts) :=
  ⟨_, _, rfl, fun a more => by simp [typeStep, Kind.ofIdent, expectArgument, setBase, Out.bind_assoc']⟩
theorem seg_prefix (ts : List Tok) : SegStep (typeStep lib) [.ident "prefix", .group ts] (setPrefix lib ts) :=
  ⟨_, _, rfl, fun a more => by simp [typeStep, Kind.ofIdent, expectArgument, setPrefix, Out.bind_assoc']⟩
theorem seg_input (ts : List Tok) : SegStep (typeStep lib) [.ident "input", .group ts] (setInput ts) :=
  ⟨_, _, rfl, fun a more => by simp [typeStep, Kind.ofIdent, expectArgument, setInput, Out.bind_assoc']⟩
theorem seg_intro (ts : List Tok) : SegStep (typeStep lib) [.ident "intro", .group ts] (setIntro ts) :=
  ⟨_, _, rfl, fun a more => by simp [typeStep, Kind.ofIdent, expectArgument, setIntro, Out.bind_assoc']⟩
theorem seg_dataset (ts : List Tok) : SegStep (typeStep lib) [.ident "dataset", .group ts] (setDataset lib ts) :=
  ⟨_, _, rfl, fun a more => by simp [typeStep, Kind.ofIdent, expectArgument, setDataset, Out.bind_assoc']⟩
theorem seg_datatype (ts : List Tok) : SegStep (typeStep lib) [.ident "datatype", .group ts] (setDatatype lib ts) :=
  ⟨_, _, rfl, fun a more => by simp [typeStep, Kind.ofIdent, expectArgument, setDatatype, Out.bind_assoc']⟩
theorem seg_resource (ts : List Tok) : SegStep (typeStep lib) [.ident "resource", .group ts] (setResource lib ts) :=
  ⟨_, _, rfl, fun a more => by simp [typeStep, Kind.ofIdent, expectArgument, patternArg, setResource, Out.bind_assoc']⟩
theorem seg_head (ts : List Tok) : SegStep (typeStep lib) [.ident "head", .group ts] (setHead lib ts) :=
  ⟨_, _, rfl, fun a more => by simp [typeStep, Kind.ofIdent, expectArgument, patternArg, setHead, Out.bind_assoc']⟩
theorem seg_tail (ts : List Tok) : SegStep (typeStep lib) [.ident "tail", .group ts] (setTail lib ts) :=
  ⟨_, _, rfl, fun a more => by simp [typeStep, Kind.ofIdent, expectArgument, patternArg, setTail, Out.bind_assoc']⟩
theorem seg_kind {n : String} {k : Kind} (h : Kind.ofIdent n = some k) : SegStep (typeStep lib) [.ident n] (setKind k) :=
  ⟨_, _, rfl, fun a more => by simp [typeStep, h, setKind, Out.bind_assoc']⟩

theorem run_base (o : Option String) (a : TypeAttrs) (ha : a.base = none) {lib : ParseLib} :
    runAll (o.toList.map fun s => setBase lib.toIriLib [.str s]) a = (optRead (iriText lib) o).bind fun x => .ok { a with base := x } := by
  cases o with
  | none => cases a; simp only at ha; subst ha; rfl
  | some s =>
    simp only [Option.toList_some, List.map_cons, List.map_nil, runAll, setBase, ha, replace, parseCompactIri_str, optRead, Out.bind_assoc', Out.bind_ok]

theorem run_prefix (o : Option (List (String × String))) (a : TypeAttrs) (ha : a.prefixes = []) {lib : ParseLib} :
    runAll (o.toList.map fun l => setPrefix lib.toIriLib (sep (l.map fun e => [.str e.1, .punct '=', .str e.2]))) a =
      (optRead (bindingsText lib) o).bind fun x => .ok { a with prefixes := (x.map (bmapCollect strLe)).getD [] } := by
  cases o with
  | none => cases a; simp only at ha; subst ha; rfl
  | some s =>
    simp only [Option.toList_some, List.map_cons, List.map_nil, runAll, setPrefix, ha, parseBindings_eq, optRead, Out.bind_assoc', Out.bind_ok]
    rfl

theorem run_input (o : Option (List String)) (a : TypeAttrs) (ha : a.input = none) :
    runAll (o.toList.map fun l => setInput (texts l)) a = .ok { a with input := o } := by
  cases o with
  | none => cases a; simp only at ha; subst ha; rfl
  | some s =>
    simp only [Option.toList_some, List.map_cons, List.map_nil, runAll, setInput, ha, replace, parseList_texts, Out.bind_assoc', Out.bind_ok]

theorem run_intro (o : Option (List String)) (a : TypeAttrs) (ha : a.intro = none) :
    runAll (o.toList.map fun l => setIntro (texts l)) a = .ok { a with intro := o } := by
  cases o with
  | none => cases a; simp only at ha; subst ha; rfl
  | some s =>
    simp only [Option.toList_some, List.map_cons, List.map_nil, runAll, setIntro, ha, replace, parseList_texts, Out.bind_assoc', Out.bind_ok]

theorem run_dataset (o : Option (List QuadDecl)) (a : TypeAttrs) (ha : a.dataset = none) :
    runAll (o.toList.map fun l => setDataset lib (quadToks l)) a = (optRead (datasetText lib) o).bind fun x => .ok { a with dataset := x } := by
  cases o with
  | none => cases a; simp only at ha; subst ha; rfl
  | some s =>
    simp only [Option.toList_some, List.map_cons, List.map_nil, runAll, setDataset, ha, replace, parseList_quads, optRead, Out.bind_assoc',
      Out.bind_ok]

theorem run_datatype (o : Option String) (a : TypeAttrs) (ha : a.datatype = none) {lib : ParseLib} :
    runAll (o.toList.map fun s => setDatatype lib.toIriLib [.str s]) a =
      (optRead (iriText lib) o).bind fun x => .ok { a with datatype := x } := by
  cases o with
  | none => cases a; simp only at ha; subst ha; rfl
  | some s =>
    simp only [Option.toList_some, List.map_cons, List.map_nil, runAll, setDatatype, ha, replace, parseCompactIri_str, optRead, Out.bind_assoc', Out.bind_ok]

theorem run_resource (o : Option String) (a : TypeAttrs) (ha : a.resource = none) :
    runAll (o.toList.map fun s => setResource lib [.str s]) a =
      (optRead (parsePattern lib) o).bind fun x => .ok { a with resource := x } := by
  cases o with
  | none => cases a; simp only at ha; subst ha; rfl
  | some s =>
    simp only [Option.toList_some, List.map_cons, List.map_nil, runAll, setResource, ha, replace, parseString, stringToken, optRead, Out.bind_assoc', Out.bind_ok]

theorem run_head (o : Option String) (a : TypeAttrs) (ha : a.head = none) :
    runAll (o.toList.map fun s => setHead lib [.str s]) a = (optRead (parsePattern lib) o).bind fun x => .ok { a with head := x } := by
  cases o with
  | none => cases a; simp only at ha; subst ha; rfl
  | some s =>
    simp only [Option.toList_some, List.map_cons, List.map_nil, runAll, setHead, ha, replace, parseString, stringToken, optRead, Out.bind_assoc', Out.bind_ok]

theorem run_tail (o : Option String) (a : TypeAttrs) (ha : a.tail = none) :
    runAll (o.toList.map fun s => setTail lib [.str s]) a = (optRead (parsePattern lib) o).bind fun x => .ok { a with tail := x } := by
  cases o with
  | none => cases a; simp only at ha; subst ha; rfl
  | some s =>
    simp only [Option.toList_some, List.map_cons, List.map_nil, runAll, setTail, ha, replace, parseString, stringToken, optRead, Out.bind_assoc', Out.bind_ok]

/-- The attributes of the header, and those of the body. -/
def attrsOf (k : Option Kind) (base : Option CompactIri) (ps : Option (List (String × CompactIri))) (h : HeaderDecl)
    (ds : Option (List (Quad SPattern))) : TypeAttrs where
  kind := k
  base := base
  prefixes := (ps.map (bmapCollect strLe)).getD []
  input := h.input
  intro := h.intro
  dataset := ds

/-- The steps of the kind and header. -/
def headerRuns (lib : ParseLib) (k : Option Kind) (h : HeaderDecl) : List (TypeAttrs → Out MacroError TypeAttrs) :=
  k.toList.map setKind ++ (h.base.toList.map fun s => setBase lib.toIriLib [.str s]) ++
  (h.prefixes.toList.map fun l => setPrefix lib.toIriLib (sep (l.map fun e => [.str e.1, .punct '=', .str e.2]))) ++
  (h.input.toList.map fun l => setInput (texts l)) ++ (h.intro.toList.map fun l => setIntro (texts l)) ++
  (h.dataset.toList.map fun l => setDataset lib.toIriLib (quadToks l))

/-- The header, read. -/
def headerRead (lib : ParseLib) (k : Option Kind) (h : HeaderDecl) : Out MacroError TypeAttrs :=
  (optRead (iriText lib) h.base).bind fun b => (optRead (bindingsText lib) h.prefixes).bind fun ps =>
  (optRead (datasetText lib.toIriLib) h.dataset).bind fun ds => .ok (attrsOf k b ps h ds)

theorem header_run (lib : ParseLib) (k : Option Kind) (h : HeaderDecl) : runAll (headerRuns lib k h) {} = headerRead lib k h := by
  have hk : runAll (k.toList.map setKind) {} = .ok { kind := k } := by
    cases k <;> simp [runAll, setKind, replace]
  unfold headerRuns headerRead
  simp only [runAll_append, hk, Out.bind_ok, Out.bind_assoc']
  rw [run_base _ _ rfl]
  simp only [Out.bind_assoc', Out.bind_ok]
  congr 1
  funext b
  rw [run_prefix _ _ rfl]
  simp only [Out.bind_assoc', Out.bind_ok]
  congr 1
  funext ps
  rw [run_input _ _ rfl]
  simp only [Out.bind_ok]
  rw [run_intro _ _ rfl]
  simp only [Out.bind_ok]
  rw [run_dataset _ _ _ rfl]
  rfl

theorem header_segs (lib : ParseLib) (n : String) (k : Option Kind) (hk : ∀ k', k = some k' → Kind.ofIdent n = some k') (h : HeaderDecl) :
    List.Forall₂ (SegStep (typeStep lib.toIriLib)) ((k.toList.map fun _ => [.ident n]) ++ h.args) (headerRuns lib k h) := by
  unfold HeaderDecl.args headerRuns
  simp only [List.append_assoc]
  refine List.rel_append ?_ (List.rel_append (arg_run _ _ (seg_base _)) (List.rel_append (arg_run _ _ (seg_prefix _))
    (List.rel_append (arg_run _ _ (seg_input _)) (List.rel_append (arg_run _ _ (seg_intro _)) (arg_run _ _ (seg_dataset _))))))
  cases k with
  | none => exact .nil
  | some k => exact .cons (seg_kind _ (hk k rfl)) .nil

/-- The attributes of a type, read. -/
theorem typeAttrs_read (lib : ParseLib) (n : String) (k : Option Kind) (hk : ∀ k', k = some k' → Kind.ofIdent n = some k') (h : HeaderDecl)
    {segs : List (List Tok)} {fs : List (TypeAttrs → Out MacroError TypeAttrs)} (hs : List.Forall₂ (SegStep (typeStep lib.toIriLib)) segs fs) :
    parseAttrs (typeStep lib.toIriLib) (attr ((k.toList.map fun _ => [.ident n]) ++ h.args ++ segs)) {} =
      (headerRead lib k h).bind fun a => runAll fs a := by
  rw [parseAttrs_run (List.rel_append (header_segs lib n k hk h) hs), runAll_append, header_run]

/-! ## The attributes of a component -/

def setCIntro (ts : List Tok) (a : CompAttrs) : Out MacroError CompAttrs :=
  (parseList stringToken ts).bind fun v => (replace a.intro v).bind fun x => .ok { a with intro := x }
def setCDataset (ts : List Tok) (a : CompAttrs) : Out MacroError CompAttrs :=
  (parseList (quadToken lib) ts).bind fun v => (replace a.dataset v).bind fun x => .ok { a with dataset := x }
def setCInput (ts : List Tok) (a : CompAttrs) : Out MacroError CompAttrs :=
  (parseList (patternToken lib) ts).bind fun v => (replace a.input v).bind fun x => .ok { a with input := x }
def setCGraph (ts : List Tok) (a : CompAttrs) : Out MacroError CompAttrs :=
  (parseGraph lib ts).bind fun v => (replace a.graph v).bind fun x => .ok { a with graph := x }
def setCHead (ts : List Tok) (a : CompAttrs) : Out MacroError CompAttrs :=
  (parseString ts).bind fun v => (replace a.head v).bind fun x => .ok { a with head := x }
def setCRest (ts : List Tok) (a : CompAttrs) : Out MacroError CompAttrs :=
  (parseString ts).bind fun v => (replace a.rest v).bind fun x => .ok { a with rest := x }
def setCProperty (s : String) (a : CompAttrs) : Out MacroError CompAttrs :=
  (parsePattern lib s).bind fun v => (replace a.property v).bind fun x => .ok { a with property := x }

theorem seg_cintro (ts : List Tok) : SegStep (compStep lib) [.ident "intro", .group ts] (setCIntro ts) :=
  ⟨_, _, rfl, fun a more => by simp [compStep, expectArgument, setCIntro, Out.bind_assoc']⟩
theorem seg_cdataset (ts : List Tok) : SegStep (compStep lib) [.ident "dataset", .group ts] (setCDataset lib ts) :=
  ⟨_, _, rfl, fun a more => by simp [compStep, expectArgument, setCDataset, Out.bind_assoc']⟩
theorem seg_cinput (ts : List Tok) : SegStep (compStep lib) [.ident "input", .group ts] (setCInput lib ts) :=
  ⟨_, _, rfl, fun a more => by simp [compStep, expectArgument, setCInput, Out.bind_assoc']⟩
theorem seg_cgraph (ts : List Tok) : SegStep (compStep lib) [.ident "graph", .group ts] (setCGraph lib ts) :=
  ⟨_, _, rfl, fun a more => by simp [compStep, expectArgument, setCGraph, Out.bind_assoc']⟩
theorem seg_chead (ts : List Tok) : SegStep (compStep lib) [.ident "head", .group ts] (setCHead ts) :=
  ⟨_, _, rfl, fun a more => by simp [compStep, expectArgument, setCHead, Out.bind_assoc']⟩
theorem seg_crest (ts : List Tok) : SegStep (compStep lib) [.ident "rest", .group ts] (setCRest ts) :=
  ⟨_, _, rfl, fun a more => by simp [compStep, expectArgument, setCRest, Out.bind_assoc']⟩
theorem seg_cproperty (s : String) : SegStep (compStep lib) [.str s] (setCProperty lib s) :=
  ⟨_, _, rfl, fun a more => by simp [compStep, setCProperty, Out.bind_assoc']⟩

/-- A graph. -/
def graphText (lib : IriLib) : Option String → Out MacroError (Option (Option SPattern))
  | none => .ok none
  | some s => (parsePattern lib s).bind fun p => .ok (some (some p))

theorem parseGraph_eq (g : Option String) : parseGraph lib (graphToks g) = graphText lib g := by
  cases g <;> simp [graphToks, parseGraph, graphText, patternToken, stringToken]

theorem graphText_ok {lib : ParseLib} (hl : MacroLib lib.toIriLib) (g : Option String) (r : Option (Option SPattern)) :
    graphText lib.toIriLib g = .ok r ↔ GraphDoc lib (graphJson g) r := by
  cases g with
  | none =>
    constructor
    · intro h
      injection h with h
      subst h
      exact .null
    · intro h
      simp only [graphJson] at h
      cases h with
      | null => rfl
      | pattern h => cases h
  | some s =>
    simp only [graphText, Out.bind_eq_ok, parsePattern_ok hl, graphJson]
    constructor
    · rintro ⟨p, h1, h2⟩
      injection h2 with h2
      subst h2
      exact .pattern h1
    · intro h
      cases h with
      | pattern h => exact ⟨_, h, rfl⟩

/-- The steps of a value. -/
def valueRuns (lib : IriLib) (v : ValueDecl) : List (CompAttrs → Out MacroError CompAttrs) :=
  (v.intro.toList.map fun l => setCIntro (texts l)) ++ (v.dataset.toList.map fun l => setCDataset lib (quadToks l)) ++
  (v.input.toList.map fun l => setCInput lib (texts l)) ++ (v.graph.toList.map fun g => setCGraph lib (graphToks g))

theorem value_segs (v : ValueDecl) : List.Forall₂ (SegStep (compStep lib)) v.args (valueRuns lib v) :=
  List.rel_append (List.rel_append (List.rel_append (arg_run _ _ (seg_cintro _)) (arg_run _ _ (seg_cdataset _))) (arg_run _ _ (seg_cinput _)))
    (arg_run _ _ (seg_cgraph _))

/-- A value, read, after other attributes. -/
def valueRead (lib : IriLib) (v : ValueDecl) (a : CompAttrs) : Out MacroError CompAttrs :=
  (optRead (datasetText lib) v.dataset).bind fun ds => (optRead (Out.mapM' (parsePattern lib)) v.input).bind fun ins =>
  (optRead (graphText lib) v.graph).bind fun g => .ok { a with intro := v.intro, dataset := ds, input := ins, graph := g }

theorem value_run {lib : ParseLib} (v : ValueDecl) (a : CompAttrs) (h1 : a.intro = none) (h2 : a.dataset = none) (h3 : a.input = none)
    (h4 : a.graph = none) : runAll (valueRuns lib.toIriLib v) a = valueRead lib.toIriLib v a := by
  obtain ⟨head, rest, intro, property, dataset, input, graph⟩ := a
  simp only at h1 h2 h3 h4
  subst h1 h2 h3 h4
  obtain ⟨vi, vd, vp, vg⟩ := v
  have e1 : runAll (vi.toList.map fun l => setCIntro (texts l)) ⟨head, rest, none, property, none, none, none⟩ =
      .ok ⟨head, rest, vi, property, none, none, none⟩ := by
    cases vi <;> simp [runAll, setCIntro, parseList_texts, replace]
  have e2 : runAll (vd.toList.map fun l => setCDataset lib.toIriLib (quadToks l)) ⟨head, rest, vi, property, none, none, none⟩ =
      (optRead (datasetText lib.toIriLib) vd).bind fun ds => .ok ⟨head, rest, vi, property, ds, none, none⟩ := by
    cases vd <;> simp [runAll, setCDataset, parseList_quads, replace, optRead, Out.bind_assoc']
  have e3 : ∀ ds, runAll (vp.toList.map fun l => setCInput lib.toIriLib (texts l)) ⟨head, rest, vi, property, ds, none, none⟩ =
      (optRead (Out.mapM' (parsePattern lib.toIriLib)) vp).bind fun ins => .ok ⟨head, rest, vi, property, ds, ins, none⟩ := by
    intro ds
    cases vp <;> simp [runAll, setCInput, patternList, replace, optRead, Out.bind_assoc']
  have e4 : ∀ ds ins, runAll (vg.toList.map fun g => setCGraph lib.toIriLib (graphToks g)) ⟨head, rest, vi, property, ds, ins, none⟩ =
      (optRead (graphText lib.toIriLib) vg).bind fun g => .ok ⟨head, rest, vi, property, ds, ins, g⟩ := by
    intro ds ins
    cases vg <;> simp [runAll, setCGraph, parseGraph_eq, replace, optRead, Out.bind_assoc']
  unfold valueRuns valueRead
  simp only [runAll_append, e1, e2, e3, e4, Out.bind_assoc', Out.bind_ok]

theorem prop_segs (p : Option String) :
    List.Forall₂ (SegStep (compStep lib)) (propArgs p) (p.toList.map fun s => setCProperty lib s) := by
  cases p with
  | none => exact .nil
  | some s => exact .cons (seg_cproperty _ _) .nil

/-- The attributes of a field or item. -/
theorem propAttrs_read {lib : ParseLib} (p : Option String) (v : ValueDecl) :
    parseAttrs (compStep lib.toIriLib) (attr (propArgs p ++ v.args)) {} =
      (optRead (parsePattern lib.toIriLib) p).bind fun x => valueRead lib.toIriLib v { property := x } := by
  rw [parseAttrs_run (List.rel_append (prop_segs _ p) (value_segs _ v)), runAll_append]
  have : runAll (p.toList.map fun s => setCProperty lib.toIriLib s) {} =
      (optRead (parsePattern lib.toIriLib) p).bind fun x => .ok { property := x } := by
    cases p <;> simp [runAll, setCProperty, replace, optRead, Out.bind_assoc']
  rw [this]
  simp only [Out.bind_assoc', Out.bind_ok]
  congr 1
  funext x
  exact value_run v _ rfl rfl rfl rfl

/-- The attributes of a variant. -/
theorem valueAttrs_read {lib : ParseLib} (v : ValueDecl) :
    parseAttrs (compStep lib.toIriLib) (attr v.args) {} = valueRead lib.toIriLib v {} := by
  rw [parseAttrs_run (value_segs _ v)]
  exact value_run v _ rfl rfl rfl rfl

/-- The attributes of a node. -/
theorem nodeAttrs_read {lib : ParseLib} (nh nr : Option String) (v : ValueDecl) :
    parseAttrs (compStep lib.toIriLib)
      (attr (arg "head" (nh.map fun s => [.str s]) ++ arg "rest" (nr.map fun s => [.str s]) ++ v.args)) {} =
      valueRead lib.toIriLib v { head := nh, rest := nr } := by
  rw [parseAttrs_run (List.rel_append (List.rel_append (arg_run nh _ (seg_chead _)) (arg_run nr _ (seg_crest _))) (value_segs _ v)),
    runAll_append, runAll_append]
  have e1 : runAll (nh.toList.map fun s => setCHead [.str s]) {} = .ok { head := nh } := by
    cases nh <;> simp [runAll, setCHead, replace, parseString, stringToken]
  have e2 : runAll (nr.toList.map fun s => setCRest [.str s]) { head := nh } = .ok { head := nh, rest := nr } := by
    cases nr <;> simp [runAll, setCRest, replace, parseString, stringToken]
  simp only [e1, e2, Out.bind_ok]
  exact value_run v _ rfl rfl rfl rfl

end

/-! ## Documents -/

theorem lookup_member (name n : String) (o : Option Json) : (member n o).lookup name = if name = n then o else none := by
  cases o with
  | none => simp [member]
  | some j =>
    simp only [member, Option.toList_some, List.map_cons, List.map_nil, List.lookup_cons, List.lookup_nil]
    by_cases h : name = n
    · simp [h]
    · simp [h, beq_false_of_ne h]

theorem keys_member (n : String) (o : Option Json) : ((member n o).map Prod.fst).Sublist [n] := by
  cases o <;> simp [member]

theorem members_of {o : JsonObject} {names allowed : List String} (h : (o.map Prod.fst).Sublist names) (hn : names.Nodup)
    (hs : ∀ n ∈ names, n ∈ allowed) : Members o allowed :=
  ⟨h.nodup hn, fun e he => hs _ (h.subset (List.mem_map_of_mem he))⟩

theorem lookup_none_of {b : JsonObject} {names : List String} (hb : (b.map Prod.fst).Sublist names) {n : String} (hn : n ∉ names) :
    b.lookup n = none := by
  refine List.lookup_eq_none_iff.2 fun e he => bne_iff_ne.2 fun h => ?_
  subst h
  exact hn (hb.subset (List.mem_map_of_mem he))

theorem keys_header (h : HeaderDecl) : (h.members.map Prod.fst).Sublist ["base", "prefixes", "input", "intro", "dataset"] := by
  unfold HeaderDecl.members
  simp only [List.map_append]
  exact ((((keys_member _ _).append (keys_member _ _)).append (keys_member _ _)).append (keys_member _ _)).append (keys_member _ _)

/-- The members of the header are those of the declaration. -/
structure HeaderLookup (h : HeaderDecl) (o : JsonObject) : Prop where
  base : o.lookup "base" = h.base.map .string
  prefixes : o.lookup "prefixes" = h.prefixes.map fun l => .object (l.map fun e => (e.1, .string e.2))
  id : o.lookup "id" = none
  input : o.lookup "input" = h.input.map textsJson
  intro : o.lookup "intro" = h.intro.map textsJson
  dataset : o.lookup "dataset" = h.dataset.map quadsJson
  extra : o.lookup "extra" = none

/-- The lookups in a document. -/
theorem lookup_doc {ty : String} {h : HeaderDecl} {b : JsonObject} {names : List String} (hb : (b.map Prod.fst).Sublist names)
    (hn : (headerMembers ++ names).Nodup) :
    (∀ n ∉ headerMembers, (("type", Json.string ty) :: (h.members ++ b)).lookup n = b.lookup n) ∧
    HeaderLookup h (("type", Json.string ty) :: (h.members ++ b)) := by
  have hdis : ∀ n ∈ headerMembers, b.lookup n = none := fun n hm =>
    lookup_none_of hb fun h' => (List.nodup_append.1 hn).2.2 n hm n h' rfl
  refine ⟨fun n hm => ?_, ?_⟩
  · simp only [headerMembers, List.mem_cons, List.not_mem_nil, or_false, not_or] at hm
    simp [List.lookup_cons, List.lookup_append, lookup_none_of (keys_header h) (n := n) (by simp; tauto), hm, beq_false_of_ne hm.1]
  · have b1 := hdis "base" (by simp [headerMembers])
    have b2 := hdis "prefixes" (by simp [headerMembers])
    have b3 := hdis "id" (by simp [headerMembers])
    have b4 := hdis "input" (by simp [headerMembers])
    have b5 := hdis "intro" (by simp [headerMembers])
    have b6 := hdis "dataset" (by simp [headerMembers])
    have b7 := hdis "extra" (by simp [headerMembers])
    constructor <;> simp [List.lookup_cons, List.lookup_append, HeaderDecl.members, lookup_member, b1, b2, b3, b4, b5, b6, b7]

theorem prefixes_default {lib : ParseLib} (o : Option (List (String × String))) (r : List (String × CompactIri)) :
    (∃ ps, optRead (bindingsText lib) o = .ok ps ∧ r = (ps.map (bmapCollect strLe)).getD []) ↔
      DefaultDoc (MapDoc strLe Eq (IriDoc lib)) [] (o.map fun l => .object (l.map fun e => (e.1, .string e.2))) r := by
  cases o with
  | none =>
    constructor
    · rintro ⟨ps, h1, h2⟩
      injection h1 with h1
      subst h1
      exact h2
    · exact fun h => ⟨none, rfl, h⟩
  | some l =>
    simp only [Option.map_some, DefaultDoc, ← bindings_doc, optRead, Out.bind_eq_ok]
    constructor
    · rintro ⟨ps, ⟨bs, h1, h2⟩, h3⟩
      injection h2 with h2
      subst h2
      exact ⟨bs, h1, h3⟩
    · rintro ⟨bs, h1, h2⟩
      exact ⟨some bs, ⟨bs, h1, rfl⟩, h2⟩

theorem header_doc {lib : ParseLib} (hl : MacroLib lib.toIriLib) {h : HeaderDecl} {o : JsonObject} (ho : HeaderLookup h o) (k : Option Kind)
    (hd : LayoutHeader) : HeaderDoc lib o hd ↔ ∃ a, headerRead lib k h = .ok a ∧ hd = a.header := by
  have key : HeaderDoc lib o hd ↔ OptDoc (IriDoc lib) (h.base.map .string) hd.base ∧
      DefaultDoc (MapDoc strLe Eq (IriDoc lib)) [] (h.prefixes.map fun l => .object (l.map fun e => (e.1, .string e.2))) hd.prefixes ∧
      hd.id = none ∧ hd.input = (h.input.map oneOrMany).getD (.one "self") ∧ hd.intro = (h.intro.map oneOrMany).getD (.many []) ∧
      DefaultDoc (DatasetDoc lib) [] (h.dataset.map quadsJson) hd.dataset ∧ hd.extra = [] := by
    constructor
    · intro H
      refine ⟨ho.base ▸ H.base, ho.prefixes ▸ H.prefixes, ?_, (names_default _ _ _).1 (ho.input ▸ H.input),
        (names_default _ _ _).1 (ho.intro ▸ H.intro), ho.dataset ▸ H.dataset, ?_⟩
      · have := H.id
        rw [ho.id] at this
        cases hi : hd.id with
        | none => rfl
        | some i => rw [hi] at this; exact absurd this id
      · have := H.extra
        rw [ho.extra] at this
        exact this
    · rintro ⟨h1, h2, h3, h4, h5, h6, h7⟩
      exact ⟨by rw [ho.base]; exact h1, by rw [ho.prefixes]; exact h2, by rw [ho.id, h3]; trivial,
        by rw [ho.input]; exact (names_default _ _ _).2 h4, by rw [ho.intro]; exact (names_default _ _ _).2 h5,
        by rw [ho.dataset]; exact h6, by rw [ho.extra]; exact h7⟩
  rw [key, ← optRead_ok iriText_ok, ← prefixes_default, ← default_ok (datasetText_ok hl)]
  simp only [headerRead, Out.bind_eq_ok]
  constructor
  · rintro ⟨h1, ⟨ps, h2, h2'⟩, h3, h4, h5, ⟨ds, h6, h6'⟩, h7⟩
    refine ⟨_, ⟨_, h1, _, h2, _, h6, rfl⟩, ?_⟩
    obtain ⟨_, _, _, _, _, _, _⟩ := hd
    simp only at h1 h2' h3 h4 h5 h6' h7
    subst h2' h3 h4 h5 h6' h7
    rfl
  · rintro ⟨a, ⟨b, h1, ps, h2, ds, h6, ha⟩, rfl⟩
    injection ha with ha
    subst ha
    exact ⟨h1, ⟨ps, h2, rfl⟩, rfl, rfl, rfl, ⟨ds, h6, rfl⟩, rfl⟩

theorem kind_doc {lib : ParseLib} (hl : MacroLib lib.toIriLib) {ty : String} {h : HeaderDecl} {b : JsonObject} {names ms : List String}
    (hb : (b.map Prod.fst).Sublist names) (hn : (headerMembers ++ names).Nodup) (hs : ∀ n ∈ names, n ∈ ms) (k : Option Kind)
    (hd : LayoutHeader) : KindDoc lib (("type", Json.string ty) :: (h.members ++ b)) ty ms hd ↔
      ∃ a, headerRead lib k h = .ok a ∧ hd = a.header := by
  have hlook := lookup_doc (ty := ty) (h := h) hb hn
  rw [← header_doc hl hlook.2 k hd]
  refine ⟨fun h => h.header, fun hh => ⟨?_, by simp [List.lookup_cons], hh⟩⟩
  have : ((("type", Json.string ty) :: (h.members ++ b)).map Prod.fst).Sublist ("type" :: (["base", "prefixes", "input", "intro", "dataset"] ++ names)) := by
    simp only [List.map_cons, List.map_append]
    exact ((keys_header h).append hb).cons₂ _
  refine members_of this ?_ ?_
  · have h2 : ("type" :: (["base", "prefixes", "input", "intro", "dataset"] ++ names)).Sublist (headerMembers ++ names) := by
      unfold headerMembers
      simp
    exact h2.nodup hn
  · intro n hm
    simp only [headerMembers, List.mem_cons, List.mem_append, List.not_mem_nil, or_false] at hm ⊢
    rcases hm with rfl | ((rfl | rfl | rfl | rfl | rfl) | hm)
    · simp
    · simp
    · simp
    · simp
    · simp
    · simp
    · exact .inl (hs n hm)

/-! ### Values -/

theorem inputs_default {lib : ParseLib} (hl : MacroLib lib.toIriLib) (o : Option (List String)) (d r : OneOrMany SPattern) :
    DefaultDoc (OneOrManyDoc (PatternDoc lib)) d (o.map textsJson) r ↔
      ∃ ins, optRead (Out.mapM' (parsePattern lib.toIriLib)) o = .ok ins ∧ r = (ins.map oneOrMany).getD d := by
  cases o with
  | none =>
    constructor
    · exact fun h => ⟨none, rfl, h⟩
    · rintro ⟨ins, h1, h2⟩
      injection h1 with h1
      subst h1
      exact h2
  | some l =>
    simp only [Option.map_some, DefaultDoc, oneOrMany_doc, optRead, Out.bind_eq_ok]
    simp only [Out.mapM'_eq_ok, parsePattern_ok hl]
    constructor
    · rintro ⟨bs, h1, h2⟩
      exact ⟨some bs, ⟨bs, h1, rfl⟩, h2⟩
    · rintro ⟨ins, ⟨bs, h1, h2⟩, h3⟩
      injection h2 with h2
      subst h2
      exact ⟨bs, h1, h3⟩

/-- The object of a value. -/
def valueObj (v : ValueDecl) (i : Nat) : JsonObject :=
  [("layout", .string ("rust:/#Type" ++ toString i))] ++ member "input" (v.input.map textsJson) ++ member "graph" (v.graph.map graphJson)

theorem format_doc {lib : ParseLib} (hl : MacroLib lib.toIriLib) (hr : ∀ s, lib.isIri s = true → lib.isIriRef s = true) (dflt : String)
    (v : ValueDecl) (i : Nat) (f : SFormat) :
    FormatDoc lib dflt (.object (valueObj v i)) f ↔
      ∃ ins g, optRead (Out.mapM' (parsePattern lib.toIriLib)) v.input = .ok ins ∧ optRead (graphText lib.toIriLib) v.graph = .ok g ∧
        f = .format (.ref (typeIri i)) ((ins.map oneOrMany).getD (.one (.var dflt))) (g.getD none) := by
  have hkeys : ((valueObj v i).map Prod.fst).Sublist ["layout", "input", "graph"] := by
    unfold valueObj
    simp only [List.map_append]
    exact ((List.Sublist.refl _).append (keys_member _ _)).append (keys_member _ _)
  have l1 : (valueObj v i).lookup "layout" = some (.string (typeIri i)) := by simp [valueObj, typeIri]
  have l2 : (valueObj v i).lookup "input" = v.input.map textsJson := by
    simp [valueObj, List.lookup_append, lookup_member, List.lookup_cons]
  have l3 : (valueObj v i).lookup "graph" = v.graph.map graphJson := by
    simp [valueObj, List.lookup_append, lookup_member, List.lookup_cons]
  constructor
  · intro h
    generalize hj : Json.object (valueObj v i) = j at h
    cases h with
    | ref _ => cases hj
    | layout h =>
      injection hj with hj
      subst hj
      have := hkeys.subset h.hasType
      simp at this
    | format hm hj' hr hi hg =>
      injection hj with hj
      subst hj
      rw [l1] at hj'
      injection hj' with hj'
      subst hj'
      cases hr
      rw [l2, inputs_default hl] at hi
      rw [l3, ← default_ok (graphText_ok hl)] at hg
      obtain ⟨ins, h1, rfl⟩ := hi
      obtain ⟨g, h2, rfl⟩ := hg
      exact ⟨ins, g, h1, h2, rfl⟩
  · rintro ⟨ins, g, h1, h2, rfl⟩
    refine .format (members_of hkeys (by decide) (fun n h => h)) l1 (.ref (hr _ (hl.typeIri i))) ?_ ?_
    · rw [l2, inputs_default hl]
      exact ⟨ins, h1, rfl⟩
    · rw [l3, ← default_ok (graphText_ok hl)]
      exact ⟨g, h2, rfl⟩

/-- The members of a value. -/
theorem value_members (v : ValueDecl) (i : Nat) : v.members i =
    member "intro" (v.intro.map textsJson) ++ member "dataset" (v.dataset.map quadsJson) ++ [("value", .object (valueObj v i))] := rfl

theorem keys_value (v : ValueDecl) (i : Nat) : ((v.members i).map Prod.fst).Sublist ["intro", "dataset", "value"] := by
  rw [value_members]
  simp only [List.map_append]
  exact ((keys_member _ _).append (keys_member _ _)).append (.refl _)

/-- The members of a value are found in an object. -/
structure ValueLookup (v : ValueDecl) (i : Nat) (o : JsonObject) : Prop where
  intro : o.lookup "intro" = v.intro.map textsJson
  dataset : o.lookup "dataset" = v.dataset.map quadsJson
  value : o.lookup "value" = some (.object (valueObj v i))

theorem lookup_value {b : JsonObject} {names : List String} (hb : (b.map Prod.fst).Sublist names)
    (hn : (["intro", "dataset", "value"] ++ names).Nodup) (v : ValueDecl) (i : Nat) :
    (∀ n ∉ ["intro", "dataset", "value"], (b ++ v.members i).lookup n = b.lookup n) ∧ ValueLookup v i (b ++ v.members i) := by
  have hdis : ∀ n ∈ ["intro", "dataset", "value"], b.lookup n = none := fun n hm =>
    lookup_none_of hb fun h' => (List.nodup_append.1 hn).2.2 n hm n h' rfl
  refine ⟨fun n hm => ?_, ?_⟩
  · rw [List.lookup_append, lookup_none_of (keys_value v i) hm, Option.or_none]
  · constructor <;> rw [List.lookup_append, hdis _ (by simp), Option.none_or, value_members] <;>
      simp [List.lookup_append, lookup_member, List.lookup_cons]

/-- The part of a component that fields, variants and items share. -/
theorem valueRead_ok {lib : ParseLib} (v : ValueDecl) (a b : CompAttrs) : valueRead lib.toIriLib v a = .ok b ↔
    ∃ ds ins g, optRead (datasetText lib.toIriLib) v.dataset = .ok ds ∧ optRead (Out.mapM' (parsePattern lib.toIriLib)) v.input = .ok ins ∧
      optRead (graphText lib.toIriLib) v.graph = .ok g ∧ b = { a with intro := v.intro, dataset := ds, input := ins, graph := g } := by
  simp only [valueRead, Out.bind_eq_ok]
  constructor
  · rintro ⟨ds, h1, ins, h2, g, h3, h4⟩
    injection h4 with h4
    exact ⟨ds, ins, g, h1, h2, h3, h4.symm⟩
  · rintro ⟨ds, ins, g, h1, h2, h3, h4⟩
    exact ⟨ds, h1, ins, h2, g, h3, by rw [h4]⟩

section
variable {lib : ParseLib} (hl : MacroLib lib.toIriLib) (hr : ∀ s, lib.isIri s = true → lib.isIriRef s = true)
include hl hr

/-- The parts of a component. -/
theorem value_doc (dflt : String) (d : OneOrMany String) (v : ValueDecl) (i : Nat) {o : JsonObject} (ho : ValueLookup v i o) (a : CompAttrs)
    (intro : OneOrMany String) (f : SFormat) (ds : List (Quad SPattern)) :
    (∃ b, valueRead lib.toIriLib v a = .ok b ∧ intro = (b.intro.map oneOrMany).getD d ∧ f = b.value dflt i ∧ ds = b.dataset.getD [] ∧
      b.property = a.property ∧ b.head = a.head ∧ b.rest = a.rest) ↔
    DefaultDoc (OneOrManyDoc StringDoc) d (o.lookup "intro") intro ∧ (∃ j, o.lookup "value" = some j ∧ FormatDoc lib dflt j f) ∧
      DefaultDoc (DatasetDoc lib) [] (o.lookup "dataset") ds := by
  rw [ho.intro, ho.dataset, ho.value, names_default, ← default_ok (datasetText_ok hl)]
  simp only [valueRead_ok]
  constructor
  · rintro ⟨b, ⟨ds', ins, g, h1, h2, h3, rfl⟩, h4, h5, h6, -⟩
    exact ⟨h4, ⟨_, rfl, (format_doc hl hr dflt v i f).2 ⟨ins, g, h2, h3, h5⟩⟩, ds', h1, h6⟩
  · rintro ⟨h4, ⟨j, hj, h5⟩, ds', h1, h6⟩
    injection hj with hj
    subst hj
    obtain ⟨ins, g, h2, h3, rfl⟩ := (format_doc hl hr dflt v i f).1 h5
    exact ⟨_, ⟨ds', ins, g, h1, h2, h3, rfl⟩, h4, rfl, h6, rfl, rfl, rfl⟩

/-- A field, read. -/
def fieldRead (lib : IriLib) (f : FieldDecl) (i : Nat) : Out MacroError SField :=
  ((optRead (parsePattern lib) f.property).bind fun x => valueRead lib f.value { property := x }).bind fun a =>
  .ok (.mk a.valueIntro (a.value "value" i) (a.dataset.getD []) a.property (isRequired f.ty))

omit hl hr in
theorem fieldType_eq (t : RType) : fieldType t = (content t, isRequired t) := by
  unfold fieldType isRequired content
  split
  · rfl
  · next h =>
    congr 1
    · split
      · next t => exact absurd rfl (h t)
      · rfl
    · split
      · next t => exact absurd rfl (h t)
      · rfl

theorem field_doc (f : FieldDecl) (i : Nat) (r : SField) : fieldRead lib.toIriLib f i = .ok r ↔
    FieldDoc lib (.object (member "property" (f.property.map .string) ++ [("required", .boolean (isRequired f.ty))] ++ f.value.members i)) r := by
  have hb : ((member "property" (f.property.map .string) ++ [("required", Json.boolean (isRequired f.ty))]).map Prod.fst).Sublist
      ["property", "required"] := by
    rw [List.map_append]
    exact (keys_member _ _).append (.refl _)
  obtain ⟨ho, hv⟩ := lookup_value hb (by decide) f.value i
  generalize hoo : member "property" (f.property.map .string) ++ [("required", Json.boolean (isRequired f.ty))] ++ f.value.members i = o at *
  have l1 : o.lookup "property" = f.property.map .string := by
    rw [ho _ (by simp)]
    simp [List.lookup_append, lookup_member, List.lookup_cons]
  have l2 : o.lookup "required" = some (.boolean (isRequired f.ty)) := by
    rw [ho _ (by simp)]
    simp [List.lookup_append, lookup_member, List.lookup_cons]
  have hmem : Members o ["intro", "value", "dataset", "property", "required"] := by
    rw [← hoo]
    refine members_of (names := ["property", "required"] ++ ["intro", "dataset", "value"]) ?_ (by decide) (by simp)
    rw [List.map_append]
    exact hb.append (keys_value _ _)
  simp only [fieldRead, Out.bind_eq_ok]
  constructor
  · rintro ⟨a, ⟨x, hx, ha⟩, h⟩
    injection h with h
    subst h
    have ha' := ha
    rw [valueRead_ok] at ha'
    obtain ⟨ds, ins, g, -, -, -, rfl⟩ := ha'
    obtain ⟨h1, ⟨j, hj, h2⟩, h3⟩ := (value_doc hl hr "value" (.one "value") f.value i hv _ _ _ _).1 ⟨_, ha, rfl, rfl, rfl, rfl, rfl, rfl⟩
    refine .mk hmem h1 hj h2 h3 ?_ ?_
    · rw [l1, ← optRead_ok (parsePattern_ok hl)]
      exact hx
    · rw [l2]
      rfl
  · intro h
    cases h with
    | mk hm hi hj hv' hd hp hreq =>
      rw [l1, ← optRead_ok (parsePattern_ok hl)] at hp
      rw [l2] at hreq
      obtain ⟨b, h1, rfl, rfl, rfl, h5, -, -⟩ := (value_doc hl hr "value" (.one "value") f.value i hv { property := _ } _ _ _).2 ⟨hi, ⟨_, hj, hv'⟩, hd⟩
      refine ⟨b, ⟨_, hp, h1⟩, ?_⟩
      injection hreq with hreq
      subst hreq
      rw [h5]
      rfl

/-- The fields, read. -/
def fieldsRead (lib : IriLib) : Nat → List FieldDecl → Out MacroError (List (String × SField))
  | _, [] => .ok []
  | i, f :: fs => (fieldRead lib f i).bind fun x => (fieldsRead lib (i + 1) fs).bind fun l => .ok ((f.name, x) :: l)

omit hl hr in
theorem parseFields_read (fs : List FieldDecl) (ts : List RType) :
    parseFields lib.toIriLib (fs.map fun f => (f.name, attr (propArgs f.property ++ f.value.args), f.ty)) ts =
      (fieldsRead lib.toIriLib ts.length fs).bind fun l => .ok (l, ts ++ (BodyDecl.record fs).types) := by
  induction fs generalizing ts with
  | nil => simp [parseFields, fieldsRead, BodyDecl.types]
  | cons f fs ih =>
    simp only [List.map_cons, parseFields, propAttrs_read, ih, fieldsRead, fieldRead, Out.bind_assoc', Out.bind_ok, List.length_append,
      List.length_cons, List.length_nil, Nat.zero_add, fieldType_eq]
    congr 1
    funext x
    congr 1
    funext a
    congr 1
    funext l
    simp [BodyDecl.types]

theorem fields_doc (fs : List FieldDecl) (i : Nat) (r : List (Value × SField)) : FieldEntries lib (fieldsJson i fs) r ↔
    ∃ l, fieldsRead lib.toIriLib i fs = .ok l ∧ r = l.map fun e => (Value.text e.1, e.2) := by
  induction fs generalizing i r with
  | nil =>
    constructor
    · intro h
      cases h
      exact ⟨[], rfl, rfl⟩
    · rintro ⟨l, h1, rfl⟩
      injection h1 with h1
      subst h1
      exact .nil
  | cons f fs ih =>
    simp only [fieldsJson, fieldsRead, Out.bind_eq_ok]
    constructor
    · intro h
      cases h with
      | cons h hs =>
        obtain ⟨l, h1, rfl⟩ := (ih _ _).1 hs
        exact ⟨_, ⟨_, (field_doc hl hr f i _).2 h, _, h1, rfl⟩, rfl⟩
    · rintro ⟨l, ⟨x, h1, l', h2, h3⟩, rfl⟩
      injection h3 with h3
      subst h3
      exact .cons ((field_doc hl hr f i _).1 h1) ((ih _ _).2 ⟨l', h2, rfl⟩)

/-- A variant, read. -/
def variantRead (lib : IriLib) (v : VariantDecl) (i : Nat) : Out MacroError SVariant :=
  (valueRead lib v.value {}).bind fun a => .ok (.mk ((a.intro.map oneOrMany).getD (.many [])) (a.value "self" i) (a.dataset.getD []))

theorem variant_doc (v : VariantDecl) (i : Nat) (r : SVariant) : variantRead lib.toIriLib v i = .ok r ↔
    VariantDoc lib (.object (v.value.members i)) r := by
  obtain ⟨ho, hv⟩ := lookup_value (b := []) (names := []) (.refl _) (by decide) v.value i
  rw [List.nil_append] at hv
  have hmem : Members (v.value.members i) ["intro", "value", "dataset"] := members_of (keys_value _ _) (by decide) (by simp)
  simp only [variantRead, Out.bind_eq_ok]
  constructor
  · rintro ⟨a, ha, h⟩
    injection h with h
    subst h
    have ha' := ha
    rw [valueRead_ok] at ha'
    obtain ⟨ds, ins, g, -, -, -, rfl⟩ := ha'
    obtain ⟨h1, ⟨j, hj, h2⟩, h3⟩ := (value_doc hl hr "self" (.many []) v.value i hv _ _ _ _).1 ⟨_, ha, rfl, rfl, rfl, rfl, rfl, rfl⟩
    exact .mk hmem h1 hj h2 h3
  · intro h
    cases h with
    | mk hm hi hj hv' hd =>
      obtain ⟨b, h1, rfl, rfl, rfl, -⟩ := (value_doc hl hr "self" (.many []) v.value i hv {} _ _ _).2 ⟨hi, ⟨_, hj, hv'⟩, hd⟩
      exact ⟨b, h1, rfl⟩

/-- The variants, read. -/
def variantsRead (lib : IriLib) : Nat → List VariantDecl → Out MacroError (List (String × SVariant))
  | _, [] => .ok []
  | i, v :: vs => (variantRead lib v i).bind fun x => (variantsRead lib (i + 1) vs).bind fun l => .ok ((v.name, x) :: l)

omit hl hr in
theorem parseVariants_read (vs : List VariantDecl) (ts : List RType) :
    parseVariants lib.toIriLib (vs.map fun v => (v.name, attr v.value.args, .unnamed [([], v.ty)])) ts =
      (variantsRead lib.toIriLib ts.length vs).bind fun l => .ok (l, ts ++ (BodyDecl.sum vs).types) := by
  induction vs generalizing ts with
  | nil => simp [parseVariants, variantsRead, BodyDecl.types]
  | cons f fs ih =>
    simp only [List.map_cons, parseVariants, valueAttrs_read, ih, variantsRead, variantRead, Out.bind_assoc', Out.bind_ok, List.length_append,
      List.length_cons, List.length_nil, Nat.zero_add]
    congr 1
    funext a
    congr 1
    funext l
    simp [BodyDecl.types]

theorem variants_doc (vs : List VariantDecl) (i : Nat) (r : List (String × SVariant)) : VariantEntries lib (variantsJson i vs) r ↔
    variantsRead lib.toIriLib i vs = .ok r := by
  induction vs generalizing i r with
  | nil =>
    constructor
    · intro h
      cases h
      rfl
    · intro h1
      injection h1 with h1
      subst h1
      exact .nil
  | cons f fs ih =>
    simp only [variantsJson, variantsRead, Out.bind_eq_ok]
    constructor
    · intro h
      cases h with
      | cons h hs => exact ⟨_, (variant_doc hl hr f i _).2 h, _, (ih _ _).1 hs, rfl⟩
    · rintro ⟨x, h1, l', h2, h3⟩
      injection h3 with h3
      subst h3
      exact .cons ((variant_doc hl hr f i _).1 h1) ((ih _ _).2 h2)

/-- An item, read. -/
def itemRead (lib : IriLib) (d : ItemDecl) (i : Nat) : Out MacroError SItem :=
  ((optRead (parsePattern lib) d.property).bind fun x => valueRead lib d.value { property := x }).bind fun a =>
  .ok (.mk a.valueIntro (a.value "value" i) (a.dataset.getD []) a.property)

theorem item_doc (f : ItemDecl) (i : Nat) (r : SItem) : itemRead lib.toIriLib f i = .ok r ↔ ItemDoc lib (f.json i) r := by
  unfold ItemDecl.json
  have hb : ((member "property" (f.property.map .string)).map Prod.fst).Sublist ["property"] := keys_member _ _
  obtain ⟨ho, hv⟩ := lookup_value hb (by decide) f.value i
  generalize hoo : member "property" (f.property.map .string) ++ f.value.members i = o at *
  have l1 : o.lookup "property" = f.property.map .string := by
    rw [ho _ (by simp)]
    simp [lookup_member]
  have hmem : Members o ["intro", "value", "dataset", "property"] := by
    rw [← hoo]
    refine members_of (names := ["property"] ++ ["intro", "dataset", "value"]) ?_ (by decide) (by simp)
    rw [List.map_append]
    exact hb.append (keys_value _ _)
  simp only [itemRead, Out.bind_eq_ok]
  constructor
  · rintro ⟨a, ⟨x, hx, ha⟩, h⟩
    injection h with h
    subst h
    have ha' := ha
    rw [valueRead_ok] at ha'
    obtain ⟨ds, ins, g, -, -, -, rfl⟩ := ha'
    obtain ⟨h1, ⟨j, hj, h2⟩, h3⟩ := (value_doc hl hr "value" (.one "value") f.value i hv _ _ _ _).1 ⟨_, ha, rfl, rfl, rfl, rfl, rfl, rfl⟩
    refine .mk hmem h1 hj h2 h3 ?_
    rw [l1, ← optRead_ok (parsePattern_ok hl)]
    exact hx
  · intro h
    cases h with
    | mk hm hi hj hv' hd hp =>
      rw [l1, ← optRead_ok (parsePattern_ok hl)] at hp
      obtain ⟨b, h1, rfl, rfl, rfl, h5, -, -⟩ := (value_doc hl hr "value" (.one "value") f.value i hv { property := _ } _ _ _).2 ⟨hi, ⟨_, hj, hv'⟩, hd⟩
      refine ⟨b, ⟨_, hp, h1⟩, ?_⟩
      rw [h5]
      rfl

/-- The items, read. -/
def itemsRead (lib : IriLib) : Nat → List ItemDecl → Out MacroError (List SItem)
  | _, [] => .ok []
  | i, d :: ds => (itemRead lib d i).bind fun x => (itemsRead lib (i + 1) ds).bind fun l => .ok (x :: l)

omit hl hr in
theorem parseItems_read (is : List ItemDecl) (ts : List RType) :
    parseItems lib.toIriLib (is.map fun i => (attr (propArgs i.property ++ i.value.args), i.ty)) ts =
      (itemsRead lib.toIriLib ts.length is).bind fun l => .ok (l, ts ++ (BodyDecl.tuple is).types) := by
  induction is generalizing ts with
  | nil => simp [parseItems, itemsRead, BodyDecl.types]
  | cons f fs ih =>
    simp only [List.map_cons, parseItems, propAttrs_read, ih, itemsRead, itemRead, Out.bind_assoc', Out.bind_ok, List.length_append,
      List.length_cons, List.length_nil, Nat.zero_add]
    congr 1
    funext x
    congr 1
    funext a
    congr 1
    funext l
    simp [BodyDecl.types]

theorem items_doc (ds : List ItemDecl) (i : Nat) (r : List SItem) : ItemList lib (itemsJson i ds) r ↔
    itemsRead lib.toIriLib i ds = .ok r := by
  induction ds generalizing i r with
  | nil =>
    constructor
    · intro h
      cases h
      rfl
    · intro h1
      injection h1 with h1
      subst h1
      exact .nil
  | cons f fs ih =>
    simp only [itemsJson, itemsRead, Out.bind_eq_ok]
    constructor
    · intro h
      cases h with
      | cons h hs => exact ⟨_, (item_doc hl hr f i _).2 h, _, (ih _ _).1 hs, rfl⟩
    · rintro ⟨x, h1, l', h2, h3⟩
      injection h3 with h3
      subst h3
      exact .cons ((item_doc hl hr f i _).1 h1) ((ih _ _).2 h2)

/-- A node, read. -/
def nodeRead (lib : IriLib) (nh nr : Option String) (v : ValueDecl) : Out MacroError SNode :=
  (valueRead lib v { head := nh, rest := nr }).bind fun a =>
  .ok (.node (a.head.getD "head") (a.rest.getD "rest") a.valueIntro (a.value "value" 0) a.dataset)

omit hl hr in
/-- Layouts have a type. -/
theorem type_some {o : JsonObject} {l : SLayout} (h : LayoutObj lib o l) : o.lookup "type" ≠ none := by
  cases h <;> rename_i hk _ <;> first | (rw [KindDoc.type (by assumption)]; simp)

omit hl hr in
theorem name_default (o : Option String) (d r : String) : DefaultDoc StringDoc d (o.map .string) r ↔ r = o.getD d := by
  cases o with
  | none => exact Iff.rfl
  | some s =>
    constructor
    · intro h; injection h with h; exact h.symm
    · intro h; subst h; rfl

theorem node_doc (nh nr : Option String) (v : ValueDecl) (r : SNode) : nodeRead lib.toIriLib nh nr v = .ok r ↔
    NodeDoc lib (.object (member "head" (nh.map .string) ++ member "rest" (nr.map .string) ++ v.members 0)) r := by
  have hb : ((member "head" (nh.map .string) ++ member "rest" (nr.map .string)).map Prod.fst).Sublist ["head", "rest"] := by
    rw [List.map_append]
    exact (keys_member _ _).append (keys_member _ _)
  obtain ⟨ho, hv⟩ := lookup_value hb (by decide) v 0
  generalize hoo : member "head" (nh.map .string) ++ member "rest" (nr.map .string) ++ v.members 0 = o at *
  have l1 : o.lookup "head" = nh.map .string := by
    rw [ho _ (by simp)]
    simp [List.lookup_append, lookup_member, List.lookup_cons]
  have l2 : o.lookup "rest" = nr.map .string := by
    rw [ho _ (by simp)]
    simp [List.lookup_append, lookup_member, List.lookup_cons]
  have l3 : o.lookup "type" = none := by
    rw [ho _ (by simp)]
    simp [List.lookup_append, lookup_member, List.lookup_cons]
  have hmem : Members o ["head", "rest", "intro", "value", "dataset"] := by
    rw [← hoo]
    refine members_of (names := ["head", "rest"] ++ ["intro", "dataset", "value"]) ?_ (by decide) (by simp)
    rw [List.map_append]
    exact hb.append (keys_value _ _)
  simp only [nodeRead, Out.bind_eq_ok]
  constructor
  · rintro ⟨a, ha, h⟩
    injection h with h
    subst h
    have ha' := ha
    rw [valueRead_ok] at ha'
    obtain ⟨ds, ins, g, hds, -, -, rfl⟩ := ha'
    obtain ⟨h1, ⟨j, hj, h2⟩, h3⟩ := (value_doc hl hr "value" (.one "value") v 0 hv _ _ _ _).1 ⟨_, ha, rfl, rfl, rfl, rfl, rfl, rfl⟩
    refine .node hmem ?_ ?_ h1 hj h2 ?_
    · rw [l1, name_default]
    · rw [l2, name_default]
    · rw [hv.dataset, ← optRead_ok (datasetText_ok hl)]
      exact hds
  · intro h
    cases h with
    | layout h => exact absurd l3 (type_some h)
    | node hm hh hrr hi hj hv' hd =>
      rw [l1, name_default] at hh
      rw [l2, name_default] at hrr
      rw [hv.dataset, ← optRead_ok (datasetText_ok hl)] at hd
      obtain ⟨b, h1, rfl, rfl, h4, -, h6, h7⟩ := (value_doc hl hr "value" (.one "value") v 0 hv { head := nh, rest := nr } _ _ ((_ : Option (List (Quad SPattern))).getD [])).2
        ⟨hi, ⟨_, hj, hv'⟩, by rw [hv.dataset, ← default_ok (datasetText_ok hl)]; exact ⟨_, hd, rfl⟩⟩
      refine ⟨b, h1, ?_⟩
      rw [valueRead_ok] at h1
      obtain ⟨ds', ins, g, hds, -, -, rfl⟩ := h1
      rw [hd] at hds
      injection hds with hds
      subst hds hh hrr
      rfl

/-! ## The body -/

/-- The kind of the layout. -/
def BodyDecl.kindOf : BodyDecl → Kind
  | .unit _ => .unit
  | .id _ _ => .id
  | .boolean _ _ _ => .boolean
  | .number _ _ _ => .number
  | .string _ _ _ => .string
  | .bytes _ _ _ => .bytes
  | .record _ => .record
  | .sum _ => .sum
  | .tuple _ => .tuple
  | .set _ => .set
  | .list _ _ _ _ _ _ => .list

omit hl hr in
theorem kindOf_ident (b : BodyDecl) : Kind.ofIdent b.kind = some b.kindOf := by
  cases b <;> rfl

/-- The steps of the attributes of the body. -/
def bodyRuns (lib : IriLib) : BodyDecl → List (TypeAttrs → Out MacroError TypeAttrs)
  | .id r _ => r.toList.map fun s => setResource lib [.str s]
  | .boolean r d _ => (r.toList.map fun s => setResource lib [.str s]) ++ (d.toList.map fun s => setDatatype lib [.str s])
  | .number r d _ => (r.toList.map fun s => setResource lib [.str s]) ++ (d.toList.map fun s => setDatatype lib [.str s])
  | .string r d _ => (r.toList.map fun s => setResource lib [.str s]) ++ (d.toList.map fun s => setDatatype lib [.str s])
  | .bytes r d _ => (r.toList.map fun s => setResource lib [.str s]) ++ (d.toList.map fun s => setDatatype lib [.str s])
  | .list hd tl _ _ _ _ => (hd.toList.map fun s => setHead lib [.str s]) ++ (tl.toList.map fun s => setTail lib [.str s])
  | _ => []

omit hl hr in
theorem body_segs (b : BodyDecl) : List.Forall₂ (SegStep (typeStep lib.toIriLib)) b.rust.1 (bodyRuns lib.toIriLib b) := by
  have h1 : ∀ r : Option String, List.Forall₂ (SegStep (typeStep lib.toIriLib)) (arg "resource" (r.map fun s => [.str s]))
      (r.toList.map fun s => setResource lib.toIriLib [.str s]) := fun r => arg_run r _ (seg_resource _)
  have h2 : ∀ r : Option String, List.Forall₂ (SegStep (typeStep lib.toIriLib)) (arg "datatype" (r.map fun s => [.str s]))
      (r.toList.map fun s => setDatatype lib.toIriLib [.str s]) := fun r => arg_run r _ (seg_datatype _)
  have h3 : ∀ r : Option String, List.Forall₂ (SegStep (typeStep lib.toIriLib)) (arg "head" (r.map fun s => [.str s]))
      (r.toList.map fun s => setHead lib.toIriLib [.str s]) := fun r => arg_run r _ (seg_head _)
  have h4 : ∀ r : Option String, List.Forall₂ (SegStep (typeStep lib.toIriLib)) (arg "tail" (r.map fun s => [.str s]))
      (r.toList.map fun s => setTail lib.toIriLib [.str s]) := fun r => arg_run r _ (seg_tail _)
  cases b with
  | id r _ => exact h1 r
  | boolean r d _ => exact List.rel_append (h1 r) (h2 d)
  | number r d _ => exact List.rel_append (h1 r) (h2 d)
  | string r d _ => exact List.rel_append (h1 r) (h2 d)
  | bytes r d _ => exact List.rel_append (h1 r) (h2 d)
  | list hd tl _ _ _ _ => exact List.rel_append (h3 hd) (h4 tl)
  | unit | record | sum | tuple | set => exact .nil

/-- What follows the attributes. -/
def finish (lib : IriLib) (data : RData) (a : TypeAttrs) : Out MacroError (SLayout × List RType) :=
  match a.kind with
  | some k => parseKind lib a data k
  | none => (Kind.ofData data).bind fun k => parseKind lib a data k

/-- The layout, given its header. -/
def BodyDoc (lib : ParseLib) (h : LayoutHeader) (l : SLayout) : BodyDecl → Prop
  | .unit _ => l = .unit h .unit
  | .id r _ => ∃ x, optRead (parsePattern lib.toIriLib) r = .ok x ∧ l = .id h none x
  | .boolean r d _ => ∃ x, optRead (parsePattern lib.toIriLib) r = .ok x ∧ ∃ y, optRead (iriText lib) d = .ok y ∧ l = .boolean h x y
  | .number r d _ => ∃ x, optRead (parsePattern lib.toIriLib) r = .ok x ∧ ∃ y, optRead (iriText lib) d = .ok (some y) ∧ l = .number h x y
  | .string r d _ => ∃ x, optRead (parsePattern lib.toIriLib) r = .ok x ∧ ∃ y, optRead (iriText lib) d = .ok y ∧ l = .textString h none x y
  | .bytes r d _ => ∃ x, optRead (parsePattern lib.toIriLib) r = .ok x ∧ ∃ y, optRead (iriText lib) d = .ok (some y) ∧ l = .byteString h x y
  | .record fs => ∃ r, fieldsRead lib.toIriLib 0 fs = .ok r ∧ l = .product h ((collect r).map fun e => (.text e.1, e.2))
  | .sum vs => ∃ r, variantsRead lib.toIriLib 0 vs = .ok r ∧ l = .sum h (collect r)
  | .tuple is => ∃ r, itemsRead lib.toIriLib 0 is = .ok r ∧ l = .sized h r
  | .set i => ∃ r, itemRead lib.toIriLib i 0 = .ok r ∧ l = .unordered h r
  | .list hd tl nh nr v _ => ∃ x, optRead (parsePattern lib.toIriLib) hd = .ok x ∧ ∃ y, optRead (parsePattern lib.toIriLib) tl = .ok y ∧
    ∃ n, nodeRead lib.toIriLib nh nr v = .ok n ∧ l = .ordered h n (x.getD (.var "self")) (y.getD (.iri rdfNil))

omit hl hr in
/-- The body of the Rust type. -/
theorem body_rust (b : BodyDecl) (a : TypeAttrs) (h1 : a.resource = none) (h2 : a.datatype = none) (h3 : a.head = none) (h4 : a.tail = none)
    (hk : a.kind = some b.kindOf ∨ a.kind = none ∧ b.implied = true) (l : SLayout) (ts : List RType) :
    ((runAll (bodyRuns lib.toIriLib b) a).bind (finish lib.toIriLib b.rust.2)) = .ok (l, ts) ↔ BodyDoc lib a.header l b ∧ ts = b.types := by
  cases b with
  | unit data =>
    simp only [BodyDecl.implied, and_false, or_false, Bool.false_eq_true] at hk
    simp only [bodyRuns, runAll, Out.bind_ok, finish, hk, BodyDecl.kindOf, parseKind, BodyDoc, BodyDecl.types, Out.ok.injEq, Prod.mk.injEq]
    constructor <;> (rintro ⟨rfl, rfl⟩; exact ⟨rfl, rfl⟩)
  | id r data =>
    simp only [BodyDecl.implied, and_false, or_false, Bool.false_eq_true] at hk
    simp only [bodyRuns, run_resource _ _ _ h1, Out.bind_assoc', Out.bind_ok, finish, hk, BodyDecl.kindOf, parseKind, BodyDoc, BodyDecl.types,
      Out.bind_eq_ok, Out.ok.injEq, Prod.mk.injEq]
    constructor
    · rintro ⟨x, hx, rfl, rfl⟩; exact ⟨⟨x, hx, rfl⟩, rfl⟩
    · rintro ⟨⟨x, hx, rfl⟩, rfl⟩; exact ⟨x, hx, rfl, rfl⟩
  | boolean r d data =>
    simp only [BodyDecl.implied, and_false, or_false, Bool.false_eq_true] at hk
    simp only [bodyRuns, runAll_append, run_resource _ _ _ h1, Out.bind_assoc', Out.bind_ok]
    have e := fun x => run_datatype (lib := lib) d { a with resource := x } h2
    simp only [e, Out.bind_assoc', Out.bind_ok]
    simp only [finish, hk, BodyDecl.kindOf, parseKind, BodyDoc, BodyDecl.types,
      Out.bind_eq_ok, Out.ok.injEq, Prod.mk.injEq]
    constructor
    · rintro ⟨x, hx, y, hy, rfl, rfl⟩; exact ⟨⟨x, hx, y, hy, rfl⟩, rfl⟩
    · rintro ⟨⟨x, hx, y, hy, rfl⟩, rfl⟩; exact ⟨x, hx, y, hy, rfl, rfl⟩
  | number r d data =>
    simp only [BodyDecl.implied, and_false, or_false, Bool.false_eq_true] at hk
    simp only [bodyRuns, runAll_append, run_resource _ _ _ h1, Out.bind_assoc', Out.bind_ok]
    have e := fun x => run_datatype (lib := lib) d { a with resource := x } h2
    simp only [e, Out.bind_assoc', Out.bind_ok]
    simp only [finish, hk, BodyDecl.kindOf, parseKind, BodyDoc, BodyDecl.types, Out.bind_eq_ok]
    constructor
    · rintro ⟨x, hx, y, hy, h⟩
      cases y with
      | none => exact absurd h (by simp)
      | some y => simp only [Out.ok.injEq, Prod.mk.injEq] at h; obtain ⟨rfl, rfl⟩ := h; exact ⟨⟨x, hx, y, hy, rfl⟩, rfl⟩
    · rintro ⟨⟨x, hx, y, hy, rfl⟩, rfl⟩; exact ⟨x, hx, some y, hy, rfl⟩
  | string r d data =>
    simp only [BodyDecl.implied, and_false, or_false, Bool.false_eq_true] at hk
    simp only [bodyRuns, runAll_append, run_resource _ _ _ h1, Out.bind_assoc', Out.bind_ok]
    have e := fun x => run_datatype (lib := lib) d { a with resource := x } h2
    simp only [e, Out.bind_assoc', Out.bind_ok]
    simp only [finish, hk, BodyDecl.kindOf, parseKind, BodyDoc, BodyDecl.types,
      Out.bind_eq_ok, Out.ok.injEq, Prod.mk.injEq]
    constructor
    · rintro ⟨x, hx, y, hy, rfl, rfl⟩; exact ⟨⟨x, hx, y, hy, rfl⟩, rfl⟩
    · rintro ⟨⟨x, hx, y, hy, rfl⟩, rfl⟩; exact ⟨x, hx, y, hy, rfl, rfl⟩
  | bytes r d data =>
    simp only [BodyDecl.implied, and_false, or_false, Bool.false_eq_true] at hk
    simp only [bodyRuns, runAll_append, run_resource _ _ _ h1, Out.bind_assoc', Out.bind_ok]
    have e := fun x => run_datatype (lib := lib) d { a with resource := x } h2
    simp only [e, Out.bind_assoc', Out.bind_ok]
    simp only [finish, hk, BodyDecl.kindOf, parseKind, BodyDoc, BodyDecl.types, Out.bind_eq_ok]
    constructor
    · rintro ⟨x, hx, y, hy, h⟩
      cases y with
      | none => exact absurd h (by simp)
      | some y => simp only [Out.ok.injEq, Prod.mk.injEq] at h; obtain ⟨rfl, rfl⟩ := h; exact ⟨⟨x, hx, y, hy, rfl⟩, rfl⟩
    · rintro ⟨⟨x, hx, y, hy, rfl⟩, rfl⟩; exact ⟨x, hx, some y, hy, rfl⟩
  | record fs =>
    have e : ∀ a', a'.kind = a.kind → finish lib.toIriLib (BodyDecl.record fs).rust.2 a' = parseKind lib.toIriLib a' (BodyDecl.record fs).rust.2 .record := by
      rintro a' ha
      rcases hk with hk | ⟨hk, -⟩ <;> rw [hk] at ha <;> simp only [finish, ha] <;> rfl
    simp only [bodyRuns, runAll, Out.bind_ok]
    rw [e _ rfl]
    simp only [BodyDecl.rust, parseKind, parseFields_read, Out.bind_assoc', Out.bind_ok, Out.bind_eq_ok, BodyDoc, List.length_nil, List.nil_append,
      Out.ok.injEq, Prod.mk.injEq]
    constructor
    · rintro ⟨r, hx, rfl, rfl⟩; exact ⟨⟨r, hx, rfl⟩, rfl⟩
    · rintro ⟨⟨r, hx, rfl⟩, rfl⟩; exact ⟨r, hx, rfl, rfl⟩
  | sum vs =>
    have e : ∀ a', a'.kind = a.kind → finish lib.toIriLib (BodyDecl.sum vs).rust.2 a' = parseKind lib.toIriLib a' (BodyDecl.sum vs).rust.2 .sum := by
      rintro a' ha
      rcases hk with hk | ⟨hk, -⟩ <;> rw [hk] at ha <;> simp only [finish, ha] <;> rfl
    simp only [bodyRuns, runAll, Out.bind_ok]
    rw [e _ rfl]
    simp only [BodyDecl.rust, parseKind, parseVariants_read, Out.bind_assoc', Out.bind_ok, Out.bind_eq_ok, BodyDoc, List.length_nil, List.nil_append,
      Out.ok.injEq, Prod.mk.injEq]
    constructor
    · rintro ⟨r, hx, rfl, rfl⟩; exact ⟨⟨r, hx, rfl⟩, rfl⟩
    · rintro ⟨⟨r, hx, rfl⟩, rfl⟩; exact ⟨r, hx, rfl, rfl⟩
  | tuple is =>
    have e : ∀ a', a'.kind = a.kind → finish lib.toIriLib (BodyDecl.tuple is).rust.2 a' = parseKind lib.toIriLib a' (BodyDecl.tuple is).rust.2 .tuple := by
      rintro a' ha
      rcases hk with hk | ⟨hk, -⟩ <;> rw [hk] at ha <;> simp only [finish, ha] <;> rfl
    simp only [bodyRuns, runAll, Out.bind_ok]
    rw [e _ rfl]
    simp only [BodyDecl.rust, parseKind, parseItems_read, Out.bind_assoc', Out.bind_ok, Out.bind_eq_ok, BodyDoc, List.length_nil, List.nil_append,
      Out.ok.injEq, Prod.mk.injEq]
    constructor
    · rintro ⟨r, hx, rfl, rfl⟩; exact ⟨⟨r, hx, rfl⟩, rfl⟩
    · rintro ⟨⟨r, hx, rfl⟩, rfl⟩; exact ⟨r, hx, rfl, rfl⟩
  | set i =>
    simp only [BodyDecl.implied, and_false, or_false, Bool.false_eq_true] at hk
    simp only [bodyRuns, runAll, Out.bind_ok, finish, hk, BodyDecl.kindOf, BodyDecl.rust, parseKind, oneField, propAttrs_read, extractVecItem,
      BodyDoc, BodyDecl.types, itemRead, Out.bind_eq_ok, Out.ok.injEq, Prod.mk.injEq]
    constructor
    · rintro ⟨x, hx, rfl, rfl⟩; exact ⟨⟨_, ⟨x, hx, rfl⟩, rfl⟩, rfl⟩
    · rintro ⟨⟨_, ⟨x, hx, rfl⟩, rfl⟩, rfl⟩; exact ⟨x, hx, rfl, rfl⟩
  | list hd tl nh nr v ty =>
    simp only [BodyDecl.implied, and_false, or_false, Bool.false_eq_true] at hk
    simp only [bodyRuns, runAll_append, run_head _ _ _ h3, Out.bind_assoc', Out.bind_ok]
    have e := fun x => run_tail lib.toIriLib tl { a with head := x } h4
    simp only [e, Out.bind_assoc', Out.bind_ok]
    simp only [finish, hk, BodyDecl.kindOf, BodyDecl.rust, parseKind, oneField, Out.bind_ok, nodeAttrs_read, extractVecItem,
      BodyDoc, BodyDecl.types, nodeRead, Out.bind_eq_ok, Out.ok.injEq, Prod.mk.injEq]
    constructor
    · rintro ⟨x, hx, y, hy, z, hz, rfl, rfl⟩; exact ⟨⟨x, hx, y, hy, _, ⟨z, hz, rfl⟩, rfl⟩, rfl⟩
    · rintro ⟨⟨x, hx, y, hy, _, ⟨z, hz, rfl⟩, rfl⟩, rfl⟩; exact ⟨x, hx, y, hy, z, hz, rfl, rfl⟩

omit hl hr in
/-- The Rust type. -/
theorem item_read (d : Decl) (k : Option Kind) (hk : k = if d.written || !d.body.implied then some d.body.kindOf else none)
    (l : SLayout) (ts : List RType) :
    parseItem lib.toIriLib d.item = .ok (l, ts) ↔ ∃ a, headerRead lib k d.header = .ok a ∧ BodyDoc lib a.header l d.body ∧ ts = d.body.types := by
  have e : (if d.written || !d.body.implied then [[Tok.ident d.body.kind]] else []) = k.toList.map fun _ => [.ident d.body.kind] := by
    rw [hk]; split <;> rfl
  have e2 : parseItem lib.toIriLib d.item = (parseAttrs (typeStep lib.toIriLib) d.item.attrs {}).bind (finish lib.toIriLib d.item.data) := rfl
  rw [e2]
  unfold Decl.item
  simp only []
  rw [e, typeAttrs_read lib d.body.kind k ?_ d.header (body_segs d.body), Out.bind_assoc', Out.bind_eq_ok]
  · refine exists_congr fun a => and_congr_right fun ha => ?_
    have ha' := ha
    simp only [headerRead, Out.bind_eq_ok] at ha'
    obtain ⟨b, -, ps, -, ds, -, h⟩ := ha'
    injection h with h
    subst h
    refine body_rust d.body _ rfl rfl rfl rfl ?_ l ts
    simp only [attrsOf]
    rw [hk]
    by_cases hw : (d.written || !d.body.implied) = true
    · exact .inl (if_pos hw)
    · refine .inr ⟨if_neg hw, ?_⟩
      simp only [Bool.or_eq_true, not_or] at hw
      simpa using hw.2
  · intro k' h'
    rw [hk] at h'
    split at h'
    · injection h' with h'
      rw [← h']
      exact kindOf_ident _
    · exact absurd h' (by simp)

omit hl hr in
theorem collect_text {α : Type} (r : List (String × α)) :
    bmapCollect Value.le (r.map fun e => (Value.text e.1, e.2)) = (collect r).map fun e => (Value.text e.1, e.2) := by
  have ins : ∀ (k : String) (x : α) (m : List (String × α)), bmapInsert Value.le (Value.text k) x (m.map fun e => (Value.text e.1, e.2)) =
      (bmapInsert strLe k x m).map fun e => (Value.text e.1, e.2) := by
    intro k x m
    induction m with
    | nil => rfl
    | cons e m ih =>
      simp only [List.map_cons, bmapInsert]
      have h1 : (Value.text k = Value.text e.1) ↔ k = e.1 := by simp [Value.text]
      by_cases h : k = e.1
      · simp [h]
      · have h' : ¬ Value.text k = Value.text e.1 := fun h'' => h (h1.1 h'')
        have h2 : Value.le (Value.text k) (Value.text e.1) = strLe k e.1 := by simp [Value.text, Value.le, strLe]
        simp only [h, h', if_false, h2]
        split
        · rfl
        · simp [ih]
  unfold bmapCollect collect
  have : ∀ (r acc : List (String × α)), List.foldl (fun m e => bmapInsert Value.le e.1 e.2 m) (acc.map fun e => (Value.text e.1, e.2))
      (r.map fun e => (Value.text e.1, e.2)) = (r.foldl (fun m e => bmapInsert strLe e.1 e.2 m) acc).map fun e => (Value.text e.1, e.2) := by
    intro r
    induction r with
    | nil => intro acc; rfl
    | cons e r ih => intro acc; simp only [List.map_cons, List.foldl_cons, ins, ih]
  exact this r []

/-- The names of the members of the body. -/
def BodyDecl.names : BodyDecl → List String
  | .unit _ => []
  | .id _ _ => ["resource"]
  | .boolean _ _ _ | .number _ _ _ | .string _ _ _ | .bytes _ _ _ => ["resource", "datatype"]
  | .record _ => ["fields"]
  | .sum _ => ["variants"]
  | .tuple _ => ["items"]
  | .set _ => ["item"]
  | .list _ _ _ _ _ _ => ["head", "tail", "node"]

omit hl hr in
theorem body_keys (b : BodyDecl) : (b.members.map Prod.fst).Sublist b.names := by
  cases b <;> simp only [BodyDecl.members, BodyDecl.names, List.map_append, List.map_cons, List.map_nil]
  case id => exact keys_member _ _
  case boolean => exact (keys_member _ _).append (keys_member _ _)
  case number => exact (keys_member _ _).append (keys_member _ _)
  case string => exact (keys_member _ _).append (keys_member _ _)
  case bytes => exact (keys_member _ _).append (keys_member _ _)
  case list => exact ((keys_member _ _).append (keys_member _ _)).append (.refl _)
  all_goals exact .refl _

omit hl hr in
theorem body_nodup (b : BodyDecl) : (headerMembers ++ b.names).Nodup := by
  cases b <;> simp only [BodyDecl.names] <;> decide

omit hl hr in
theorem rdfNil_eq : rdfNil = "http://www.w3.org/1999/02/22-rdf-syntax-ns#nil" := rfl

/-- The JSON document. -/
theorem json_read (d : Decl) (k : Option Kind) (l : SLayout) : LayoutDoc lib d.json l ↔
    ∃ a, headerRead lib k d.header = .ok a ∧ BodyDoc lib a.header l d.body := by
  obtain ⟨name, written, header, b⟩ := d
  simp only [Decl.json]
  have hkeys := body_keys b
  have hnd := body_nodup b
  obtain ⟨hlk, -⟩ := lookup_doc (ty := b.kind) (h := header) hkeys hnd
  have hkd := fun ms (hs : ∀ n ∈ b.names, n ∈ ms) hd => kind_doc hl (ty := b.kind) (h := header) hkeys hnd hs k hd
  have hty : (("type", Json.string b.kind) :: (header.members ++ b.members)).lookup "type" = some (.string b.kind) := by simp [List.lookup_cons]
  have hpat : ∀ o r, OptDoc (PatternDoc lib) (o.map .string) r ↔ optRead (parsePattern lib.toIriLib) o = .ok r :=
    fun o r => (optRead_ok (parsePattern_ok hl) o r).symm
  have hiri : ∀ o r, OptDoc (IriDoc lib) (o.map .string) r ↔ optRead (iriText lib) o = .ok r :=
    fun o r => (optRead_ok iriText_ok o r).symm
  have hdef : ∀ o d r, DefaultDoc (PatternDoc lib) d (o.map .string) r ↔ ∃ x, optRead (parsePattern lib.toIriLib) o = .ok x ∧ r = x.getD d :=
    fun o d r => (default_ok (parsePattern_ok hl) d o r).symm
  have outer : ∀ o, LayoutDoc lib (.object o) l ↔ LayoutObj lib o l := fun o => ⟨fun h => by cases h; assumption, .object⟩
  rw [outer]
  generalize ho : ("type", Json.string b.kind) :: (header.members ++ b.members) = o at *
  cases b with
  | unit data =>
    have hc : o.lookup "const" = none := by rw [hlk _ (by decide)]; rfl
    simp only [BodyDoc]
    constructor
    · intro h
      cases h <;> first
        | (have ht := KindDoc.type ‹_›; rw [hty] at ht; simp [BodyDecl.kind] at ht; done)
        | skip
      rename_i hh kk hk hcc
      obtain ⟨a, h1, h2⟩ := (hkd _ (by simp [BodyDecl.names]) _).1 hk
      rw [hc] at hcc
      exact ⟨a, h1, by rw [h2, hcc]; rfl⟩
    · rintro ⟨a, h1, rfl⟩
      exact .unit ((hkd _ (by simp [BodyDecl.names]) _).2 ⟨a, h1, rfl⟩) (by rw [hc]; rfl)
  | id r data =>
    have l1 : o.lookup "pattern" = none := by
      rw [hlk _ (by decide)]; simp [BodyDecl.members, lookup_member]
    have l2 : o.lookup "resource" = r.map .string := by
      rw [hlk _ (by decide)]; simp [BodyDecl.members, lookup_member]
    simp only [BodyDoc]
    constructor
    · intro h
      cases h <;> first
        | (have ht := KindDoc.type ‹_›; rw [hty] at ht; simp [BodyDecl.kind] at ht; done)
        | skip
      rename_i hh e x hk he hr'
      obtain ⟨a, h1, h2⟩ := (hkd _ (by simp [BodyDecl.names]) _).1 hk
      rw [l1] at he
      rw [l2, hpat] at hr'
      cases e with
      | none => exact ⟨a, h1, x, hr', by rw [h2]⟩
      | some e => exact absurd he id
    · rintro ⟨a, h1, x, hx, rfl⟩
      exact .id ((hkd _ (by simp [BodyDecl.names]) _).2 ⟨a, h1, rfl⟩) (by rw [l1]; trivial) (by rw [l2, hpat]; exact hx)
  | boolean r d data =>
    have l1 : o.lookup "resource" = r.map .string := by
      rw [hlk _ (by decide)]; simp [BodyDecl.members, List.lookup_append, lookup_member]
    have l2 : o.lookup "datatype" = d.map .string := by
      rw [hlk _ (by decide)]; simp [BodyDecl.members, List.lookup_append, lookup_member]
    simp only [BodyDoc]
    constructor
    · intro h
      cases h <;> first
        | (have ht := KindDoc.type ‹_›; rw [hty] at ht; simp [BodyDecl.kind] at ht; done)
        | skip
      rename_i hh x y hk hr' hd'
      obtain ⟨a, h1, h2⟩ := (hkd _ (by simp [BodyDecl.names]) _).1 hk
      rw [l1, hpat] at hr'
      rw [l2, hiri] at hd'
      exact ⟨a, h1, x, hr', y, hd', by rw [h2]⟩
    · rintro ⟨a, h1, x, hx, y, hy, rfl⟩
      exact .boolean ((hkd _ (by simp [BodyDecl.names]) _).2 ⟨a, h1, rfl⟩) (by rw [l1, hpat]; exact hx) (by rw [l2, hiri]; exact hy)
  | number r d data =>
    have l1 : o.lookup "resource" = r.map .string := by
      rw [hlk _ (by decide)]; simp [BodyDecl.members, List.lookup_append, lookup_member]
    have l2 : o.lookup "datatype" = d.map .string := by
      rw [hlk _ (by decide)]; simp [BodyDecl.members, List.lookup_append, lookup_member]
    simp only [BodyDoc]
    constructor
    · intro h
      cases h <;> first
        | (have ht := KindDoc.type ‹_›; rw [hty] at ht; simp [BodyDecl.kind] at ht; done)
        | skip
      rename_i hh x y hk hr' hd'
      obtain ⟨a, h1, h2⟩ := (hkd _ (by simp [BodyDecl.names]) _).1 hk
      rw [l1, hpat] at hr'
      rw [l2, hiri] at hd'
      exact ⟨a, h1, x, hr', y, hd', by rw [h2]⟩
    · rintro ⟨a, h1, x, hx, y, hy, rfl⟩
      exact .number ((hkd _ (by simp [BodyDecl.names]) _).2 ⟨a, h1, rfl⟩) (by rw [l1, hpat]; exact hx) (by rw [l2, hiri]; exact hy)
  | bytes r d data =>
    have l1 : o.lookup "resource" = r.map .string := by
      rw [hlk _ (by decide)]; simp [BodyDecl.members, List.lookup_append, lookup_member]
    have l2 : o.lookup "datatype" = d.map .string := by
      rw [hlk _ (by decide)]; simp [BodyDecl.members, List.lookup_append, lookup_member]
    simp only [BodyDoc]
    constructor
    · intro h
      cases h <;> first
        | (have ht := KindDoc.type ‹_›; rw [hty] at ht; simp [BodyDecl.kind] at ht; done)
        | skip
      rename_i hh x y hk hr' hd'
      obtain ⟨a, h1, h2⟩ := (hkd _ (by simp [BodyDecl.names]) _).1 hk
      rw [l1, hpat] at hr'
      rw [l2, hiri] at hd'
      exact ⟨a, h1, x, hr', y, hd', by rw [h2]⟩
    · rintro ⟨a, h1, x, hx, y, hy, rfl⟩
      exact .byteString ((hkd _ (by simp [BodyDecl.names]) _).2 ⟨a, h1, rfl⟩) (by rw [l1, hpat]; exact hx) (by rw [l2, hiri]; exact hy)
  | string r d data =>
    have l0 : o.lookup "pattern" = none := by
      rw [hlk _ (by decide)]; simp [BodyDecl.members, List.lookup_append, lookup_member]
    have l1 : o.lookup "resource" = r.map .string := by
      rw [hlk _ (by decide)]; simp [BodyDecl.members, List.lookup_append, lookup_member]
    have l2 : o.lookup "datatype" = d.map .string := by
      rw [hlk _ (by decide)]; simp [BodyDecl.members, List.lookup_append, lookup_member]
    simp only [BodyDoc]
    constructor
    · intro h
      cases h <;> first
        | (have ht := KindDoc.type ‹_›; rw [hty] at ht; simp [BodyDecl.kind] at ht; done)
        | skip
      rename_i hh e x y hk he hr' hd'
      obtain ⟨a, h1, h2⟩ := (hkd _ (by simp [BodyDecl.names]) _).1 hk
      rw [l0] at he
      rw [l1, hpat] at hr'
      rw [l2, hiri] at hd'
      cases e with
      | none => exact ⟨a, h1, x, hr', y, hd', by rw [h2]⟩
      | some e => exact absurd he id
    · rintro ⟨a, h1, x, hx, y, hy, rfl⟩
      exact .textString ((hkd _ (by simp [BodyDecl.names]) _).2 ⟨a, h1, rfl⟩) (by rw [l0]; trivial) (by rw [l1, hpat]; exact hx)
        (by rw [l2, hiri]; exact hy)
  | record fs =>
    have l1 : o.lookup "fields" = some (.object (fieldsJson 0 fs)) := by
      rw [hlk _ (by decide)]; simp [BodyDecl.members, List.lookup_cons]
    simp only [BodyDoc]
    constructor
    · intro h
      cases h <;> first
        | (have ht := KindDoc.type ‹_›; rw [hty] at ht; simp [BodyDecl.kind] at ht; done)
        | skip
      rename_i hh x hk hf
      obtain ⟨a, h1, h2⟩ := (hkd _ (by simp [BodyDecl.names]) _).1 hk
      rw [l1] at hf
      cases hf with
      | present hf =>
        obtain ⟨r, h3, rfl⟩ := (fields_doc hl hr fs 0 _).1 hf
        exact ⟨a, h1, r, h3, by rw [h2, collect_text]⟩
    · rintro ⟨a, h1, r, hx, rfl⟩
      refine .record ((hkd _ (by simp [BodyDecl.names]) _).2 ⟨a, h1, rfl⟩) ?_
      rw [l1, ← collect_text]
      exact .present ((fields_doc hl hr fs 0 _).2 ⟨r, hx, rfl⟩)
  | sum vs =>
    have l1 : o.lookup "variants" = some (.object (variantsJson 0 vs)) := by
      rw [hlk _ (by decide)]; simp [BodyDecl.members, List.lookup_cons]
    simp only [BodyDoc]
    constructor
    · intro h
      cases h <;> first
        | (have ht := KindDoc.type ‹_›; rw [hty] at ht; simp [BodyDecl.kind] at ht; done)
        | skip
      rename_i hh x hk hf
      obtain ⟨a, h1, h2⟩ := (hkd _ (by simp [BodyDecl.names]) _).1 hk
      rw [l1] at hf
      cases hf with
      | present hf => exact ⟨a, h1, _, (variants_doc hl hr vs 0 _).1 hf, by rw [h2]; rfl⟩
    · rintro ⟨a, h1, r, hx, rfl⟩
      refine .sum ((hkd _ (by simp [BodyDecl.names]) _).2 ⟨a, h1, rfl⟩) ?_
      rw [l1]
      exact .present ((variants_doc hl hr vs 0 _).2 hx)
  | tuple is =>
    have l1 : o.lookup "items" = some (.array (itemsJson 0 is)) := by
      rw [hlk _ (by decide)]; simp [BodyDecl.members, List.lookup_cons]
    simp only [BodyDoc]
    constructor
    · intro h
      cases h <;> first
        | (have ht := KindDoc.type ‹_›; rw [hty] at ht; simp [BodyDecl.kind] at ht; done)
        | skip
      rename_i hh x hk hf
      obtain ⟨a, h1, h2⟩ := (hkd _ (by simp [BodyDecl.names]) _).1 hk
      rw [l1] at hf
      cases hf with
      | present hf => exact ⟨a, h1, _, (items_doc hl hr is 0 _).1 hf, by rw [h2]⟩
    · rintro ⟨a, h1, r, hx, rfl⟩
      refine .tuple ((hkd _ (by simp [BodyDecl.names]) _).2 ⟨a, h1, rfl⟩) ?_
      rw [l1]
      exact .present ((items_doc hl hr is 0 _).2 hx)
  | set i =>
    have l1 : o.lookup "item" = some (i.json 0) := by
      rw [hlk _ (by decide)]; simp [BodyDecl.members, List.lookup_cons]
    simp only [BodyDoc]
    constructor
    · intro h
      cases h <;> first
        | (have ht := KindDoc.type ‹_›; rw [hty] at ht; simp [BodyDecl.kind] at ht; done)
        | skip
      rename_i hh j x hi hk hj
      obtain ⟨a, h1, h2⟩ := (hkd _ (by simp [BodyDecl.names]) _).1 hk
      rw [l1] at hj
      injection hj with hj
      subst hj
      exact ⟨a, h1, _, (item_doc hl hr i 0 _).2 hi, by rw [h2]⟩
    · rintro ⟨a, h1, r, hx, rfl⟩
      exact .set ((hkd _ (by simp [BodyDecl.names]) _).2 ⟨a, h1, rfl⟩) l1 ((item_doc hl hr i 0 _).1 hx)
  | list hd tl nh nr v ty =>
    have l1 : o.lookup "node" = some (.object (member "head" (nh.map .string) ++ member "rest" (nr.map .string) ++ v.members 0)) := by
      rw [hlk _ (by decide)]; simp [BodyDecl.members, List.lookup_append, List.lookup_cons, lookup_member]
    have l2 : o.lookup "head" = hd.map .string := by
      rw [hlk _ (by decide)]; simp [BodyDecl.members, List.lookup_append, List.lookup_cons, lookup_member]
    have l3 : o.lookup "tail" = tl.map .string := by
      rw [hlk _ (by decide)]; simp [BodyDecl.members, List.lookup_append, List.lookup_cons, lookup_member]
    simp only [BodyDoc]
    constructor
    · intro h
      cases h <;> first
        | (have ht := KindDoc.type ‹_›; rw [hty] at ht; simp [BodyDecl.kind] at ht; done)
        | skip
      rename_i hh j n x y hn hk hj hh' ht'
      obtain ⟨a, h1, h2⟩ := (hkd _ (by simp [BodyDecl.names]) _).1 hk
      rw [l1] at hj
      injection hj with hj
      subst hj
      rw [l2, hdef] at hh'
      rw [l3, hdef] at ht'
      obtain ⟨p, hp, rfl⟩ := hh'
      obtain ⟨q, hq, rfl⟩ := ht'
      exact ⟨a, h1, p, hp, q, hq, _, (node_doc hl hr nh nr v _).2 hn, by rw [h2, rdfNil_eq]⟩
    · rintro ⟨a, h1, p, hp, q, hq, n, hn, rfl⟩
      refine .list ((hkd _ (by simp [BodyDecl.names]) _).2 ⟨a, h1, rfl⟩) l1 ((node_doc hl hr nh nr v _).1 hn) ?_ ?_
      · rw [l2, hdef]
        exact ⟨p, hp, rfl⟩
      · rw [l3, hdef]
        exact ⟨q, hq, by rw [rdfNil_eq]⟩

end

end Rust

end Verif
