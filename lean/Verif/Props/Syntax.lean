import Verif.SyntaxDesugar
import Verif.SyntaxClean
import Verif.HydratePanic
import Verif.HydrateExample

/-!
# Properties of layout definitions
-/

set_option linter.unusedSectionVars false
set_option linter.unusedSimpArgs false

namespace Verif

/-! ## An example -/

namespace SyExample

/-- IRIs contain a colon; relative references are appended to the base IRI. -/
def lib : IriLib where
  isIriRef _ := true
  isIri s := s.toList.contains ':'
  resolve r b := b ++ r
  isBlankId s := s.startsWith "_:"
  isLangTag _ := true
  decimalType _ := "http://www.w3.org/2001/XMLSchema#integer"

/-- Resources are terms. -/
def ctx : BuildCtx Term where
  lib := lib
  iri := .iri
  lit := .literal
  fresh n := .blank (String.ofList (List.replicate n 'x'))
  le _ _ := false
  leQ _ _ := false

theorem ctx_fresh : ctx.FreshLaws where
  inj m n h := by
    simp only [ctx, Term.blank.injEq] at h
    have := congrArg (fun s => s.toList.length) h
    simpa using this
  notIri m i h := by simp [ctx] at h

/-- A person, with a name and a set of friends. -/
def person : SLayout :=
  .product { id := some "https://example.org/Person", prefixes := [("ex", "https://example.org/")] }
    [(.literal (.textString "name"),
        .mk (.one "value") (.layout (.layout (.textString {} none none none))) [] (some (.iri "ex:name")) true),
      (.literal (.textString "friends"),
        .mk (.many []) (.format (.layout (.unordered {} (.mk (.one "value") (.layout (.ref "https://example.org/Person")) []
          (some (.iri "ex:knows"))))) (.one (.var "self")) none) [] none false)]

def empty : Builder Term := ⟨[], 0⟩

/-- Its compilation. -/
def built : Builder Term := (person.buildWithContext ctx empty).2

theorem person_ok : person.buildWithContext ctx empty = (.ok (.iri "https://example.org/Person"), built) := by
  have h : (person.buildWithContext ctx empty).1 = .ok (.iri "https://example.org/Person") := by decide +kernel
  exact Prod.ext h rfl

/-- The friends are found from the first input of the nested layout. -/
example : (match built.layouts.lookup (.blank "x") with
    | some ⟨.unordered l, _⟩ => decide (l = {
        input := 1, intro := 0, dataset := [],
        item := ⟨1, ⟨.iri "https://example.org/Person", [.var 1], none⟩,
          [⟨.var 0, .res (.iri "https://example.org/knows"), .var 1, none⟩]⟩ })
    | _ => false) = true := by decide +kernel

end SyExample

namespace Props

open BuildM

variable {R : Type} [DecidableEq R]

/-! ## C21: scopes -/

/-- **C21**. In the scope of a layout with the header `h`, and in parts of it that introduce the variables `inner`, a name
denotes its last declaration among the inputs, the introduced variables and `inner`. Other names are rejected. -/
theorem C21_variables (lib : IriLib) (base : Option String) (prefixes : List (String × String)) (h : LayoutHeader) (s : Scope)
    (hs : Scope.withHeader lib { baseIri := base, prefixes := prefixes } h = .ok s) (inner : List String) (x : String) :
    (∀ i, (s.withIntro inner).index x = .ok i ↔ NameDenotes (h.input.asSlice ++ h.intro.asSlice ++ inner) x i) ∧
      (x ∉ h.input.asSlice ++ h.intro.asSlice ++ inner → (s.withIntro inner).index x = .err (.undeclaredVariable x)) := by
  have hm : ({ baseIri := base, prefixes := prefixes } : Scope).Matches ⟨base, fun x => prefixes.lookup x, []⟩ :=
    ⟨rfl, fun _ => rfl, rfl, fun x i => by simp [NameDenotes]⟩
  obtain ⟨env', hm', ho⟩ := withHeader_opens hm hs
  have hn : (env'.declare inner).names = h.input.asSlice ++ h.intro.asSlice ++ inner := by
    simp [LexEnv.declare, ho.names]
  have hk : ∀ i, (s.withIntro inner).index x = .ok i ↔ NameDenotes (h.input.asSlice ++ h.intro.asSlice ++ inner) x i := by
    intro i
    rw [index_ok (hm'.withIntro inner), hn]
  refine ⟨hk, fun hx => ?_⟩
  cases hi : (s.withIntro inner).index x with
  | ok i =>
    refine absurd ((nameDenotes_iff_mem _ _).1 ⟨i, (hk i).1 hi⟩) hx
  | err e =>
    unfold Scope.index at hi
    split at hi
    · cases hi
    · cases hi
      rfl
  | panic =>
    unfold Scope.index at hi
    split at hi <;> cases hi
  | fuel =>
    unfold Scope.index at hi
    split at hi <;> cases hi

/-- A shadowed name, a name that is not shadowed, an undeclared one. -/
example : ∃ s, Scope.withHeader SyExample.lib {} { input := .many ["a", "b"], intro := .one "a" } = .ok s ∧
    (s.withIntro ["c", "b"]).index "a" = .ok 2 ∧ (s.withIntro ["c", "b"]).index "b" = .ok 4 ∧
    (s.withIntro ["c", "b"]).index "d" = .err (.undeclaredVariable "d") := by
  refine ⟨_, rfl, ?_, ?_, ?_⟩ <;> decide +kernel

/-- **C21**, nested layouts. What a layout nested in another one is compiled to does not depend on the variables declared around
it. -/
theorem C21_nested (c : BuildCtx R) (l : SLayoutRef) (s s' : Scope) (hb : s.baseIri = s'.baseIri) (hp : s.prefixes = s'.prefixes) :
    l.build c s = l.build c s' := by
  have : s.withoutVariables = s'.withoutVariables := by simp [Scope.withoutVariables, hb, hp]
  cases l <;> simp only [SLayoutRef.build, this]

/-- A nested layout cannot use a variable of the layout that contains it. -/
example : ((SLayoutRef.layout (.boolean { input := .many [] } (some (.var "self")) none)).build SyExample.ctx
    { vars := [("self", 0)], count := 1 } SyExample.empty).1 = .err (.undeclaredVariable "self") := by decide +kernel

/-- **C21**, for whole definitions. A layout definition that is compiled means the resulting layout: each variable is the one
that its name denotes, each IRI is the expansion of the compact IRI, each nested layout is found under its identifier and means
its own definition, without the variables around it. -/
theorem C21_definition (c : BuildCtx R) (l : SLayout) (b b' : Builder R) (r : R)
    (h : l.buildWithContext c b = (.ok r, b')) :
    (∃ e, b'.layouts.lookup r = some e ∧
      l.Means c (fun r => (b'.layouts.lookup r).map Entry.layout) LexEnv.empty e.layout) ∧
      ∀ i, l.HasId i → ∃ i', Expands c.lib LexEnv.empty i i' ∧ r = c.iri i' := by
  have hg := define_gives (D := fun _ _ => True) (id := l.layoutId) Scope.matches_empty rfl trivial
    (body_gives c _ l _ _ Scope.matches_empty rfl fun _ _ _ => trivial)
  obtain ⟨-, hn⟩ := hg b r b' h
  obtain ⟨-, ⟨a, ha, hm⟩, hid⟩ := hn (fun r => (b'.layouts.lookup r).map Entry.layout) fun r e he => by simp [he]
  refine ⟨?_, fun i hi => hid i (layoutId_eq_some.2 hi)⟩
  simp only [Option.map_eq_some_iff] at ha
  obtain ⟨e, he, rfl⟩ := ha
  exact ⟨e, he, hm⟩

example := C21_definition SyExample.ctx SyExample.person SyExample.empty SyExample.built _ SyExample.person_ok

/-! ## C22: compiled layouts are closed -/

/-- The new layouts are meanings of layout definitions. -/
theorem new_layouts (c : BuildCtx R) (l : SLayout) (b b' : Builder R) (r : R) (h : l.buildWithContext c b = (.ok r, b'))
    (ref : R) (e : Entry R) (he : b'.layouts.lookup ref = some e) :
    b.layouts.lookup ref = some e ∨
      ∃ l' env, SubDef c.lib LexEnv.empty l env l' ∧ env.names = [] ∧
        EntryMeans c (fun r => (b'.layouts.lookup r).map Entry.layout) l' env e := by
  have hg := define_gives (D := SubDef c.lib LexEnv.empty l) (id := l.layoutId) Scope.matches_empty rfl .refl
    (body_gives c _ l _ _ Scope.matches_empty rfl fun _ _ h => h)
  obtain ⟨-, hn⟩ := hg b r b' h
  exact (hn (fun r => (b'.layouts.lookup r).map Entry.layout) fun r e he => by simp [he]).1 ref e he

/-- **C22**. Every layout that is added to the builder only uses the variables in scope at each place. -/
theorem C22_closed (c : BuildCtx R) (l : SLayout) (b b' : Builder R) (r : R) (h : l.buildWithContext c b = (.ok r, b'))
    (ref : R) (e : Entry R) (he : b'.layouts.lookup ref = some e) : b.layouts.lookup ref = some e ∨ e.layout.Closed := by
  rcases new_layouts c l b b' r h ref e he with h | ⟨l', env, -, hn, hm⟩
  · exact .inl h
  · exact .inr (hm.1.closed hn)

example : ∀ ref e, SyExample.built.layouts.lookup ref = some e → e.layout.Closed := fun ref e he =>
  (C22_closed _ _ _ _ _ SyExample.person_ok ref e he).resolve_left (by simp [SyExample.empty])

/-- Literal layouts are declared with one input. -/
def OneInput : AbsLayout R → Prop
  | .unit l => l.input = 1
  | .boolean l => l.input = 1
  | .number l => l.input = 1
  | .byteString l => l.input = 1
  | .textString l _ => l.input = 1
  | .id input _ _ _ _ => input = 1
  | _ => True

/-- The layout that results from the construction of a closed one is closed, if literal layouts have one input. -/
theorem C22_runtime (debug : Bool) (fuel : Nat) (a : AbsLayout R) (l : Layout R) (h : a.build debug fuel = .ok l) (hc : a.Closed)
    (h1 : OneInput a) : l.Closed := by
  cases a with
  | never => cases h; trivial
  | always => cases h; trivial
  | unit d => cases h; exact (congrArg (fun n => PatsBelow (n + d.intro) d.dataset) h1).mp hc
  | boolean d =>
    cases h
    exact (congrArg (fun n => PatsBelow (n + d.intro) d.dataset ∧ d.resource.Below (n + d.intro)) h1).mp hc
  | number d =>
    cases h
    exact (congrArg (fun n => PatsBelow (n + d.intro) d.dataset ∧ d.resource.Below (n + d.intro)) h1).mp hc
  | byteString d =>
    cases h
    exact (congrArg (fun n => PatsBelow (n + d.intro) d.dataset ∧ d.resource.Below (n + d.intro)) h1).mp hc
  | textString d p =>
    simp only [AbsLayout.build, bind_ok_eq] at h
    obtain ⟨p', _, rfl⟩ := h
    exact (congrArg (fun n => PatsBelow (n + d.intro) d.dataset ∧ d.resource.Below (n + d.intro)) h1).mp hc
  | id input intro ds p res =>
    simp only [AbsLayout.build, bind_ok_eq] at h
    obtain ⟨p', _, rfl⟩ := h
    exact (congrArg (fun n => PatsBelow (n + intro) ds ∧ res.Below (n + intro)) h1).mp hc
  | product d => cases h; exact hc
  | unordered d => cases h; exact hc
  | ordered d => cases h; exact hc
  | sized d => cases h; exact hc
  | sum d => cases h; exact hc

/-- **C22**, at run time. The registry made of the layouts of a builder is closed, if literal layouts have one input: hydration
and dehydration do not fail on unknown variables. Without the condition it may not be: see `C26_literal_inputs`. -/
theorem C22_registry (debug : Bool) (fuel : Nat) (b : Builder R) (ls : List (R × Layout R × List (R × R)))
    (h : buildAll debug fuel b.layouts = .ok ls) (hc : ∀ ref e, (ref, e) ∈ b.layouts → e.layout.Closed)
    (h1 : ∀ ref e, (ref, e) ∈ b.layouts → OneInput e.layout) :
    Registry.Closed fun ref => (ls.lookup ref).map Prod.fst := by
  have key : ∀ (es : List (R × Entry R)) ls, buildAll debug fuel es = .ok ls →
      (∀ ref e, (ref, e) ∈ es → e.layout.Closed ∧ OneInput e.layout) → ∀ e ∈ ls, e.2.1.Closed := by
    intro es
    induction es with
    | nil =>
      intro ls h _
      cases h
      simp
    | cons x es ih =>
      intro ls h hx
      obtain ⟨r, x⟩ := x
      simp only [buildAll, Out.bind_eq_ok, Out.ok.injEq] at h
      obtain ⟨a, ha, ls', hls', rfl⟩ := h
      intro e he
      rcases List.mem_cons.1 he with rfl | he
      · have := hx r x (by simp)
        exact C22_runtime debug fuel x.layout a ha this.1 this.2
      · exact ih ls' hls' (fun ref e he => hx ref e (by simp [he])) e he
  intro ref l hl
  simp only [Option.map_eq_some_iff] at hl
  obtain ⟨e, he, rfl⟩ := hl
  exact key _ _ h (fun ref e he => ⟨hc ref e he, h1 ref e he⟩) (ref, e) (mem_of_lookup_some he)

/-! ## C24: redefinitions -/

/-- Two definitions of the same layout. -/
def firstDef : SLayout := .unit { id := some "https://example.org/A" } (.literal .unit)
def secondDef : SLayout := .boolean { id := some "https://example.org/A" } none none

/-- **C24** fails: the redefinition is reported, but the previously built layout is replaced. -/
theorem C24_overwrites :
    let b := (firstDef.buildWithContext SyExample.ctx SyExample.empty).2
    let b' := (secondDef.buildWithContext SyExample.ctx b).2
    (firstDef.buildWithContext SyExample.ctx SyExample.empty).1 = .ok (.iri "https://example.org/A") ∧
    (secondDef.buildWithContext SyExample.ctx b).1 = .err .layoutRedefinition ∧
    (∃ l, (b.layouts.lookup (.iri "https://example.org/A")).map Entry.layout = some (.unit l)) ∧
    ∃ l, (b'.layouts.lookup (.iri "https://example.org/A")).map Entry.layout = some (.boolean l) := by
  refine ⟨by decide +kernel, by decide +kernel, ⟨_, rfl⟩, ⟨_, rfl⟩⟩

/-- **C24**, what holds. If building a definition succeeds, the layouts of the builder are unchanged and the new ones are
meanings of (nested) layout definitions. In any case, without a redefinition error the layouts of the builder are unchanged, and
with one at most one of them is changed; new identifiers are IRIs or freshly generated. Missing: on a redefinition the previous
layout should be kept (`C24_overwrites`). -/
theorem C24_partial (c : BuildCtx R) (l : SLayout) (b b' : Builder R) (o : Out BuildError R)
    (h : l.buildWithContext c b = (o, b')) :
    (o ≠ .err .layoutRedefinition → ∀ r e, b.layouts.lookup r = some e → b'.layouts.lookup r = some e) ∧
    (o = .err .layoutRedefinition →
      ∃ r, ∀ r' e, r' ≠ r → b.layouts.lookup r' = some e → b'.layouts.lookup r' = some e) ∧
    (∀ r e, b'.layouts.lookup r = some e → (b.layouts.lookup r).isSome = true ∨ (l.named = true ∧ ∃ i, r = c.iri i) ∨
      ∃ m, b.next ≤ m ∧ m < b'.next ∧ r = c.fresh m) ∧
    (∀ r, o = .ok r → b.layouts.lookup r = none ∧ ∀ ref e, b'.layouts.lookup ref = some e → b.layouts.lookup ref = some e ∨
      ∃ l' env, SubDef c.lib LexEnv.empty l env l' ∧ env.names = [] ∧
        EntryMeans c (fun r => (b'.layouts.lookup r).map Entry.layout) l' env e) := by
  have hs := build_safe c l {} b o b' h
  refine ⟨hs.keeps, hs.damage, hs.adds, ?_⟩
  rintro r rfl
  refine ⟨?_, fun ref e he => new_layouts c l b b' r h ref e he⟩
  obtain ⟨r₀, b₁, h1, h2⟩ := bind_ok_iff.1 h
  obtain ⟨e, b₂, h3, h4⟩ := bind_ok_iff.1 h2
  obtain ⟨hl, -⟩ := buildId_ok Scope.matches_empty h1
  obtain ⟨rfl, hnone, -⟩ := insertLayout_ok h4
  have := (body_safe c l _ _ _ _ h3).keeps (by simp)
  cases hb : b.layouts.lookup r with
  | none => rfl
  | some e' =>
    rw [← hl] at hb
    rw [this _ _ hb] at hnone
    cases hnone

example := C24_partial SyExample.ctx SyExample.person SyExample.empty SyExample.built _ SyExample.person_ok

/-- **C24**, redefinitions are detected. Building a definition whose identifier is already defined fails; if the contents of the
definition are correct, it reports a redefinition. -/
theorem C24_detected (c : BuildCtx R) (l : SLayout) (i : CompactIri) (i' : String) (hi : l.HasId i)
    (he : Expands c.lib LexEnv.empty i i') (b : Builder R) (hb : (b.layouts.lookup (c.iri i')).isSome = true) :
    (∀ r, (l.buildWithContext c b).1 ≠ .ok r) ∧
      ∀ e b₁, l.buildBody c {} b = (.ok e, b₁) → (l.buildWithContext c b).1 = .err .layoutRedefinition := by
  rw [← layoutId_eq_some] at hi
  have hid : CompactIri.build c {} i = .ok (c.iri i') := (compactIri_means Scope.matches_empty).2 ⟨i', he, rfl⟩
  have hx : l.buildWithContext c b = ((l.buildBody c {}).bind fun e => insertLayout c (c.iri i') e) b := by
    simp only [SLayout.buildWithContext, SLayout.build, defineLayout, hi, buildId, hid]
    rfl
  have key : ∀ e b₁, l.buildBody c {} b = (.ok e, b₁) → (l.buildWithContext c b).1 = .err .layoutRedefinition := by
    intro e b₁ h1
    rw [hx]
    simp only [BuildM.bind, h1]
    have := (body_safe c l {} b _ _ h1).stays _ hb
    simp [insertLayout, this]
  refine ⟨fun r hr => ?_, key⟩
  rcases hbody : l.buildBody c {} b with ⟨o, b₁⟩
  cases o with
  | ok e =>
    rw [key e b₁ hbody] at hr
    cases hr
  | err e =>
    rw [hx] at hr
    simp [BuildM.bind, hbody] at hr
  | panic =>
    rw [hx] at hr
    simp [BuildM.bind, hbody] at hr
  | fuel =>
    rw [hx] at hr
    simp [BuildM.bind, hbody] at hr

/-- The person cannot be defined twice. -/
example : (SyExample.person.buildWithContext SyExample.ctx SyExample.built).1 = .err .layoutRedefinition := by decide +kernel

/-! ## C51: unnamed layouts -/

/-- **C51** fails for `Layout::build`, which starts a new generator each time: a second unnamed layout in the same builder
replaces the first one, and is reported as a redefinition. -/
theorem C51_unnamed_clash :
    let b := ((SLayout.bool true).buildTop SyExample.ctx SyExample.empty).2
    ((SLayout.bool true).buildTop SyExample.ctx SyExample.empty).1 = .ok (.blank "") ∧
    ((SLayout.bool false).buildTop SyExample.ctx b).1 = .err .layoutRedefinition ∧
    (b.layouts.lookup (.blank "")).map Entry.layout = some .always ∧
    (((SLayout.bool false).buildTop SyExample.ctx b).2.layouts.lookup (.blank "")).map Entry.layout = some .never := by
  refine ⟨by decide +kernel, by decide +kernel, rfl, rfl⟩

/-- **C51**, with a single generator. Definitions without explicit identifiers never clash: building one does not report a
redefinition, if the identifiers still to be generated are not in use; and this remains so. -/
theorem C51_partial (c : BuildCtx R) (hc : c.FreshLaws) (l : SLayout) (b b' : Builder R) (o : Out BuildError R)
    (h : l.buildWithContext c b = (o, b')) (hf : ∀ n, b.next ≤ n → b.layouts.lookup (c.fresh n) = none) :
    (l.named = false → o ≠ .err .layoutRedefinition) ∧ ∀ n, b'.next ≤ n → b'.layouts.lookup (c.fresh n) = none := by
  have hs := build_safe c l {} b o b' h
  refine ⟨fun hn ho => ?_, hs.fresh hc hf⟩
  have := hs.named hc hf ho
  rw [hn] at this
  cases this

/-- After the person, any number of unnamed layouts. -/
example (l : SLayout) (hl : l.named = false) : (l.buildWithContext SyExample.ctx SyExample.built).1 ≠ .err .layoutRedefinition :=
  (C51_partial SyExample.ctx SyExample.ctx_fresh l SyExample.built _ _ rfl
    (C51_partial SyExample.ctx SyExample.ctx_fresh _ _ _ _ SyExample.person_ok (fun _ _ => rfl)).2).1 hl

/-! ## C25: shorthands -/

/-- **C25**, fields. A field with a `property` is the same as the field with the explicit quad from the first input `x` to the
first variable `y` it introduces. -/
theorem C25_field (c : BuildCtx R) (s : Scope) (hs : s.vars = [] ∧ s.count = 0) (h : LayoutHeader) (name : Value)
    (intro : OneOrMany String) (value : SFormat) (ds : List (Quad SPattern)) (p : SPattern) (required : Bool)
    (pre post : List (Value × SField)) (x y : String)
    (hx : h.input.asSlice.head? = some x) (hy : intro.asSlice.head? = some y)
    (hx' : NameDenotes (h.input.asSlice ++ h.intro.asSlice ++ intro.asSlice) x 0)
    (hy' : NameDenotes (h.input.asSlice ++ h.intro.asSlice ++ intro.asSlice) y (h.input.asSlice.length + h.intro.asSlice.length)) :
    (SLayout.product h (pre ++ (name, .mk intro value ds (some p) required) :: post)).build c s =
      (SLayout.product h (pre ++ (name, .mk intro value (ds ++ [⟨.var x, p, .var y, none⟩]) none required) :: post)).build c s := by
  simp only [SLayout.build, SLayout.layoutId, SLayout.buildBody]
  congr 1
  refine lift_bind_congr _ _ _ fun b hb => ?_
  have h1 : h.input.asSlice ≠ [] := by
    intro h0
    rw [h0] at hx
    cases hx
  have h2 : intro.asSlice ≠ [] := by
    intro h0
    rw [h0] at hy
    cases hy
  rw [buildFields_congr c _ _ _ name _ _ (field_desugar c b.scope h.input intro _ value ds p required x y h1 h2
    ((header_scope_index hs hb _ _ _).2 hx') ?_) pre post]
  · rfl
  · rw [header_scope_index hs hb, OneOrMany.len_eq, OneOrMany.len_eq]
    exact hy'

/-- **C25**, set items. -/
theorem C25_item (c : BuildCtx R) (s : Scope) (hs : s.vars = [] ∧ s.count = 0) (h : LayoutHeader)
    (intro : OneOrMany String) (value : SFormat) (ds : List (Quad SPattern)) (p : SPattern) (x y : String)
    (hx : h.input.asSlice.head? = some x) (hy : intro.asSlice.head? = some y)
    (hx' : NameDenotes (h.input.asSlice ++ h.intro.asSlice ++ intro.asSlice) x 0)
    (hy' : NameDenotes (h.input.asSlice ++ h.intro.asSlice ++ intro.asSlice) y (h.input.asSlice.length + h.intro.asSlice.length)) :
    (SLayout.unordered h (.mk intro value ds (some p))).build c s =
      (SLayout.unordered h (.mk intro value (ds ++ [⟨.var x, p, .var y, none⟩]) none)).build c s := by
  simp only [SLayout.build, SLayout.layoutId, SLayout.buildBody]
  congr 1
  refine lift_bind_congr _ _ _ fun b hb => ?_
  have h1 : h.input.asSlice ≠ [] := by
    intro h0
    rw [h0] at hx
    cases hx
  have h2 : intro.asSlice ≠ [] := by
    intro h0
    rw [h0] at hy
    cases hy
  rw [item_desugar c b.scope h.input intro value ds p x y h1 h2 ((header_scope_index hs hb _ _ _).2 hx') ?_]
  · rfl
  · rw [header_scope_index hs hb, header_scope_count hs hb]
    exact hy'

/-- **C25**, items of a sized list. -/
theorem C25_sized (c : BuildCtx R) (s : Scope) (hs : s.vars = [] ∧ s.count = 0) (h : LayoutHeader)
    (intro : OneOrMany String) (value : SFormat) (ds : List (Quad SPattern)) (p : SPattern) (pre post : List SItem) (x y : String)
    (hx : h.input.asSlice.head? = some x) (hy : intro.asSlice.head? = some y)
    (hx' : NameDenotes (h.input.asSlice ++ h.intro.asSlice ++ intro.asSlice) x 0)
    (hy' : NameDenotes (h.input.asSlice ++ h.intro.asSlice ++ intro.asSlice) y (h.input.asSlice.length + h.intro.asSlice.length)) :
    (SLayout.sized h (pre ++ .mk intro value ds (some p) :: post)).build c s =
      (SLayout.sized h (pre ++ .mk intro value (ds ++ [⟨.var x, p, .var y, none⟩]) none :: post)).build c s := by
  simp only [SLayout.build, SLayout.layoutId, SLayout.buildBody]
  congr 1
  refine lift_bind_congr _ _ _ fun b hb => ?_
  have h1 : h.input.asSlice ≠ [] := by
    intro h0
    rw [h0] at hx
    cases hx
  have h2 : intro.asSlice ≠ [] := by
    intro h0
    rw [h0] at hy
    cases hy
  rw [buildItems_congr c _ _ _ _ (item_desugar c b.scope h.input intro value ds p x y h1 h2
    ((header_scope_index hs hb _ _ _).2 hx') ?_) pre post]
  · rfl
  · rw [header_scope_index hs hb, header_scope_count hs hb]
    exact hy'

/-- The name of the example, with the explicit quad. -/
example : NameDenotes (["self"] ++ [] ++ ["value"]) "self" 0 ∧ NameDenotes (["self"] ++ [] ++ ["value"]) "value" 1 := by
  refine ⟨⟨rfl, fun j hj => ?_⟩, ⟨rfl, fun j hj => ?_⟩⟩
  · match j, hj with
    | 1, _ => simp
    | j + 2, _ => simp
  · match j, hj with
    | j + 2, _ => simp

/-- **C25**, list nodes given by a layout. They are nodes with the variables `head`, `rest` and `value`. -/
theorem C25_node_layout (c : BuildCtx R) (s : Scope) (h : LayoutHeader) (r : SLayoutRef) (head tail : SPattern) :
    (SLayout.ordered h (.layout r) head tail).build c s =
      (SLayout.ordered h (.node "head" "rest" (.one "value") (.layout r) none) head tail).build c s := by
  have hn : ∀ t : Scope, (SNode.layout r).build c t = (SNode.node "head" "rest" (.one "value") (.layout r) none).build c t := by
    intro t
    have hi : (t.withIntro ["head", "rest", "value"]).index "value" = .ok (t.count + 2) := by
      simp [Scope.withIntro, Scope.bind, Scope.index, List.lookup]
    have hr : r.build c t = r.build c (t.withIntro ["head", "rest", "value"]) := C21_nested c r _ _ rfl rfl
    simp only [SNode.build, OneOrMany.asSlice, SFormat.build, nodeDataset, SPattern.build, hi, Out.bind_ok, ← hr]
    funext b
    simp only [BuildM.bind, BuildM.lift, BuildM.pure]
    rcases r.build c t b with ⟨o, b'⟩
    cases o <;> rfl
  simp only [SLayout.build, SLayout.layoutId, SLayout.buildBody, hn]

/-- **C25**, list nodes. A node without dataset whose value has the single input `p` is the same as the node with the explicit
dataset `head rdf:first p`, `head rdf:rest rest`, if the variables `head` and `rest` are not shadowed and if `http` is not a
prefix. -/
theorem C25_node (c : BuildCtx R) (s : Scope) (hs : s.vars = [] ∧ s.count = 0) (h : LayoutHeader) (head rest : String)
    (intro : OneOrMany String) (l : SLayoutRef) (input : OneOrMany SPattern) (graph : Option (Option SPattern)) (p hd tl : SPattern)
    (hp : input.asSlice = [p])
    (hhead : NameDenotes (h.input.asSlice ++ h.intro.asSlice ++ head :: rest :: intro.asSlice) head
      (h.input.asSlice.length + h.intro.asSlice.length))
    (hrest : NameDenotes (h.input.asSlice ++ h.intro.asSlice ++ head :: rest :: intro.asSlice) rest
      (h.input.asSlice.length + h.intro.asSlice.length + 1))
    (hiri : c.lib.isIri rdfFirst = true ∧ c.lib.isIri rdfRest = true)
    (hpre : s.prefixes.lookup "http" = none ∧ "http" ∉ h.prefixes.map Prod.fst) :
    (SLayout.ordered h (.node head rest intro (.format l input graph) none) hd tl).build c s =
      (SLayout.ordered h (.node head rest intro (.format l input graph) (some
        [⟨.var head, .iri rdfFirst, p, none⟩, ⟨.var head, .iri rdfRest, .var rest, none⟩])) hd tl).build c s := by
  simp only [SLayout.build, SLayout.layoutId, SLayout.buildBody]
  congr 1
  refine lift_bind_congr _ _ _ fun b hb => ?_
  have hm : s.Matches ⟨s.baseIri, fun x => s.prefixes.lookup x, []⟩ :=
    ⟨rfl, fun _ => rfl, hs.2, fun x i => by rw [hs.1]; simp [NameDenotes]⟩
  obtain ⟨env', hm', hh, -⟩ := header_means hm hb
  have hc := header_scope_count hs hb
  have hh' : (b.scope.withIntro (head :: rest :: intro.asSlice)).index head = .ok b.scope.count := by
    rw [header_scope_index hs hb, hc]
    exact hhead
  have hr' : (b.scope.withIntro (head :: rest :: intro.asSlice)).index rest = .ok (b.scope.count + 1) := by
    rw [header_scope_index hs hb, hc]
    exact hrest
  have hnp : env'.prefixes "http" = none := by
    rw [hh.opens.inherited _ hpre.2]
    exact hpre.1
  have hf : CompactIri.resolve c.lib (b.scope.withIntro (head :: rest :: intro.asSlice)) rdfFirst = .ok rdfFirst :=
    (resolve_ok (hm'.withIntro _)).2 (.absolute hiri.1 (by
      have : iriScheme rdfFirst = "http" := by decide +kernel
      rw [this]
      exact hnp))
  have hf' : CompactIri.resolve c.lib (b.scope.withIntro (head :: rest :: intro.asSlice)) rdfRest = .ok rdfRest :=
    (resolve_ok (hm'.withIntro _)).2 (.absolute hiri.2 (by
      have : iriScheme rdfRest = "http" := by decide +kernel
      rw [this]
      exact hnp))
  have hds : nodeDataset c (b.scope.withIntro (head :: rest :: intro.asSlice)) b.scope.count (b.scope.count + 1)
      (.format l input graph) none = nodeDataset c (b.scope.withIntro (head :: rest :: intro.asSlice)) b.scope.count (b.scope.count + 1)
      (.format l input graph) (some [⟨.var head, .iri rdfFirst, p, none⟩, ⟨.var head, .iri rdfRest, .var rest, none⟩]) := by
    have e1 : SPattern.build c (b.scope.withIntro (head :: rest :: intro.asSlice)) (.var head) = .ok (.var b.scope.count) := by
      simp [SPattern.build, hh']
    have e2 : SPattern.build c (b.scope.withIntro (head :: rest :: intro.asSlice)) (.var rest) = .ok (.var (b.scope.count + 1)) := by
      simp [SPattern.build, hr']
    have e3 : SPattern.build c (b.scope.withIntro (head :: rest :: intro.asSlice)) (.iri rdfFirst) = .ok (.res (c.iri rdfFirst)) := by
      simp [SPattern.build, hf]
    have e4 : SPattern.build c (b.scope.withIntro (head :: rest :: intro.asSlice)) (.iri rdfRest) = .ok (.res (c.iri rdfRest)) := by
      simp [SPattern.build, hf']
    simp only [nodeDataset, hp, SDataset.build, SQuad.build, e1, e2, e3, e4, Out.bind_ok, optBuild]
    cases SPattern.build c (b.scope.withIntro (head :: rest :: intro.asSlice)) p <;> rfl
  simp only [SNode.build, hds]

/-! ## C26: number of inputs -/

/-- **C26**, what holds. A record, sum or list layout requires as many inputs as its definition declares. -/
theorem C26_partial (c : BuildCtx R) (reg : R → Option (AbsLayout R)) (l : SLayout) (h : LayoutHeader) (hl : l.header = some h)
    (env : LexEnv) (a : AbsLayout R) (hm : l.Means c reg env a) (debug : Bool) (fuel : Nat) (a' : Layout R)
    (ha : a.build debug fuel = .ok a') :
    match l with
    | .product _ _ | .sum _ _ | .ordered _ _ _ _ | .unordered _ _ | .sized _ _ => a'.inputCount = some h.input.asSlice.length
    | _ => a'.inputCount = some 1 := by
  cases l <;> simp only [SLayout.Means] at hm <;> simp only [SLayout.header, Option.some.injEq, reduceCtorEq] at hl <;> subst hl
  case product =>
    obtain ⟨l, env', rfl, hh, -⟩ := hm
    cases ha
    exact congrArg some hh.input
  case sum =>
    obtain ⟨l, env', rfl, hh, -⟩ := hm
    cases ha
    exact congrArg some hh.input
  case ordered =>
    obtain ⟨l, env', rfl, hh, -⟩ := hm
    cases ha
    exact congrArg some hh.input
  case unordered =>
    obtain ⟨l, env', rfl, hh, -⟩ := hm
    cases ha
    exact congrArg some hh.input
  case sized =>
    obtain ⟨l, env', rfl, hh, -⟩ := hm
    cases ha
    exact congrArg some hh.input
  case unit =>
    obtain ⟨l, env', rfl, hh, -⟩ := hm
    cases ha
    rfl
  case boolean =>
    obtain ⟨l, env', rfl, hh, -⟩ := hm
    cases ha
    rfl
  case number =>
    obtain ⟨l, env', rfl, hh, -⟩ := hm
    cases ha
    rfl
  case byteString =>
    obtain ⟨l, env', rfl, hh, -⟩ := hm
    cases ha
    rfl
  case textString =>
    obtain ⟨l, env', rfl, hh, -⟩ := hm
    simp only [AbsLayout.build, bind_ok_eq] at ha
    obtain ⟨p', _, rfl⟩ := ha
    rfl
  case id =>
    obtain ⟨input, intro, ds, r', env', rfl, hh, -⟩ := hm
    simp only [AbsLayout.build, bind_ok_eq] at ha
    obtain ⟨p', _, rfl⟩ := ha
    rfl

/-- A boolean layout with two inputs, the second of which is the resource. -/
def twoInputs : SLayout := .boolean { id := some "https://example.org/B", input := .many ["a", "b"] } (some (.var "b")) none

/-- The hydration context with a single layout. -/
def hyCtx (l : Layout Term) : HyCtx Term :=
  .ofTerms (fun r => if r = .iri "https://example.org/B" then some l else none) Example.xsd (fun _ _ => true) []

/-- **C26** fails for literal layouts. A definition with two inputs is accepted and compiled; but hydration refuses two inputs,
and panics with one. -/
theorem C26_literal_inputs :
    let b := (twoInputs.buildWithContext SyExample.ctx SyExample.empty).2
    let l : DataLayout Term := ⟨2, 0, [], .var 1, .iri xsdBoolean⟩
    (twoInputs.buildWithContext SyExample.ctx SyExample.empty).1 = .ok (.iri "https://example.org/B") ∧
    b.layouts.lookup (.iri "https://example.org/B") = some ⟨.boolean l, []⟩ ∧
    (AbsLayout.boolean l).build true 0 = .ok (.boolean l) ∧
    Hydrate.hydrate (hyCtx (.boolean l)) 5 none (.iri "https://example.org/B") [.iri "x", .iri "y"] =
      .err (.invalidInputCount 1 2) ∧
    Hydrate.hydrate (hyCtx (.boolean l)) 5 none (.iri "https://example.org/B") [.iri "x"] = .panic := by
  refine ⟨by decide +kernel, rfl, rfl, ?_, ?_⟩ <;> decide +kernel

/-! ## C52: compact IRIs -/

/-- **C52**. A compact IRI stands for itself if it is an IRI whose scheme is not a prefix, for the concatenation of the prefix
and the suffix if it is, and for its resolution against the base IRI if it is relative; it is rejected otherwise. -/
theorem C52_expansion (lib : IriLib) (base : Option String) (prefixes : List (String × String)) (i : CompactIri) :
    (∀ r, CompactIri.resolve lib { baseIri := base, prefixes := prefixes } i = .ok r ↔
      Expands lib ⟨base, fun x => prefixes.lookup x, []⟩ i r) ∧
    ((¬ ∃ r, Expands lib ⟨base, fun x => prefixes.lookup x, []⟩ i r) →
      ∃ e, CompactIri.resolve lib { baseIri := base, prefixes := prefixes } i = .err e) := by
  have hm : ({ baseIri := base, prefixes := prefixes } : Scope).Matches ⟨base, fun x => prefixes.lookup x, []⟩ :=
    ⟨rfl, fun _ => rfl, rfl, fun x i => by simp [NameDenotes]⟩
  refine ⟨fun r => resolve_ok hm, fun hn => ?_⟩
  have hc := clean_resolve lib { baseIri := base, prefixes := prefixes } i
  cases h : CompactIri.resolve lib { baseIri := base, prefixes := prefixes } i with
  | ok r => exact absurd ⟨r, (resolve_ok hm).1 h⟩ hn
  | err e => exact ⟨e, rfl⟩
  | panic => exact absurd h hc.1
  | fuel => exact absurd h hc.2

example : Expands SyExample.lib ⟨none, fun x => [("ex", "https://example.org/")].lookup x, []⟩ "ex:name" "https://example.org/name" :=
  (C52_expansion SyExample.lib none [("ex", "https://example.org/")] "ex:name").1 _ |>.1 (by decide +kernel)

/-- **C52**, headers. The base IRI and the prefixes of a header are expanded in the enclosing scope, not with each other; they
are in force in the layout; prefixes that are not redeclared are inherited. -/
theorem C52_header (lib : IriLib) (base : Option String) (prefixes : List (String × String)) (h : LayoutHeader) (s : Scope)
    (hs : Scope.withHeader lib { baseIri := base, prefixes := prefixes } h = .ok s) :
    ∃ env, s.baseIri = env.base ∧ (∀ x, s.prefixes.lookup x = env.prefixes x) ∧
      Opens lib ⟨base, fun x => prefixes.lookup x, []⟩ h env := by
  have hm : ({ baseIri := base, prefixes := prefixes } : Scope).Matches ⟨base, fun x => prefixes.lookup x, []⟩ :=
    ⟨rfl, fun _ => rfl, rfl, fun x i => by simp [NameDenotes]⟩
  obtain ⟨env, hm', ho⟩ := withHeader_opens hm hs
  exact ⟨env, hm'.base, hm'.prefixes, ho⟩

example : ∃ s, Scope.withHeader SyExample.lib {} { base := some "https://example.org/a", prefixes := [("ex", "https://example.org/"),
    ("e2", "ex:b")] } = .ok s ∧ s.prefixes.lookup "e2" = some "ex:b" := ⟨_, rfl, by decide +kernel⟩

/-! ## C53: panics of the compiler -/

/-- **C53** fails: unions and intersections are part of the syntax, but make the compiler panic. -/
theorem C53_set_operations_panic (c : BuildCtx R) (h : LayoutHeader) (b : Builder R) (hid : h.id = none) :
    ((SLayout.union h).buildWithContext c b).1 = .panic ∧ ((SLayout.intersection h).buildWithContext c b).1 = .panic := by
  simp only [SLayout.buildWithContext, SLayout.build, SLayout.layoutId, hid, SLayout.buildBody]
  exact ⟨rfl, rfl⟩

/-- **C53**, what holds. Without unions and intersections, compilation ends with a layout or an error. -/
theorem C53_partial (c : BuildCtx R) (l : SLayout) (hl : l.setOp = false) (b : Builder R) :
    (l.buildWithContext c b).1 ≠ .panic ∧ (l.buildWithContext c b).1 ≠ .fuel := build_clean c l {} hl b

example : SyExample.person.setOp = false := by decide +kernel

end Props
end Verif
