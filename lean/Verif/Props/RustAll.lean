import Verif.RustAll
import Verif.RustNames
import Verif.CliLemmas
import Verif.Props.Rust
import Verif.Props.SyntaxParse

/-!
# C65: generating Rust types for all the layouts of some files
-/

set_option linter.unusedSectionVars false
set_option linter.unusedSimpArgs false

namespace Verif.Props

open Verif.Rust (GenCtx Generated GenError IncludeError ToolError ToolDefault CharLib includeFiles includeBuild generateLayouts tldrInclude
  layoutIdent layoutRef presetType startsWith toolFiles toolLayout tool)

variable {R : Type} [DecidableEq R]

/-- **C65**. When the macro succeeds, it generates one type for each layout of the files, in order, and nothing else: the one
that the generator gives for this layout alone, with the name that other types use for it. -/
theorem C65_one_per_layout (env : LoadEnv R) (g : GenCtx R) (files : List SourceFile) (items : List Generated)
    (h : tldrInclude env g files = .ok items) :
    ∃ layouts : LayoutMap R, includeBuild env files = .ok layouts ∧
      List.Forall₂ (fun r x => Rust.generate g layouts.registry r = .ok x ∧ layoutIdent g r = .ok x.ident) layouts.keys items := by
  simp only [tldrInclude, Out.bind_eq_ok, Out.mapErr_eq_ok] at h
  obtain ⟨layouts, hl, h⟩ := h
  refine ⟨layouts, hl, ?_⟩
  rw [generateLayouts, Out.mapM'_eq_ok] at h
  simp only [LayoutMap.keys, List.forall₂_map_left_iff]
  exact h.imp fun e x hx => ⟨hx, Rust.generate_ident hx⟩

/-- No preset layout and no external module has this name. -/
def Local (g : GenCtx R) (r : R) : Prop :=
  ∀ i ∈ g.irisOf r, presetType i = none ∧ ∀ m ∈ g.externModules, startsWith i m.1 = false

theorem layoutRefLoop_local {g : GenCtx R} : ∀ {is : List String},
    (∀ i ∈ is, presetType i = none ∧ ∀ m ∈ g.externModules, startsWith i m.1 = false) → Rust.layoutRefLoop g is none = .inr none := by
  intro is
  induction is with
  | nil => intro _; rfl
  | cons i is ih =>
    intro h
    obtain ⟨h1, h2⟩ := h i (by simp)
    have hf : ∀ (ms : List (String × List String)), (∀ m ∈ ms, startsWith i m.1 = false) →
        ms.foldl (fun acc m => if startsWith i m.1 then some m.2 else acc) (none : Option (List String)) = none := by
      intro ms
      induction ms with
      | nil => intro _; rfl
      | cons m ms ihm =>
        intro hm
        rw [List.foldl_cons, hm m (by simp)]
        exact ihm fun m hm' => hm m (by simp [hm'])
    simp only [Rust.layoutRefLoop, h1, hf _ h2]
    exact ih fun i hi => h i (by simp [hi])

theorem layoutRef_local {g : GenCtx R} {r : R} (hl : Local g r) :
    layoutRef g r = (layoutIdent g r).bind fun id => .ok (.path [] id []) := by
  simp only [layoutRef, layoutRefLoop_local hl]
  rfl

theorem forall₂_mem {α β : Type} {P : α → β → Prop} {l : List α} {m : List β} (h : List.Forall₂ P l m) {a : α} (ha : a ∈ l) :
    ∃ b ∈ m, P a b := by
  induction h with
  | nil => cases ha
  | cons hx _ ih =>
    rcases List.mem_cons.1 ha with rfl | ha
    · exact ⟨_, by simp, hx⟩
    · obtain ⟨b, hb, hp⟩ := ih ha
      exact ⟨b, by simp [hb], hp⟩

/-- **C65**. A reference to a layout of the files, in the types that are generated, is the name of a type that is generated: the
one of this layout, and no other if the names are distinct. -/
theorem C65_references_partial (env : LoadEnv R) (g : GenCtx R) (files : List SourceFile) (items : List Generated)
    (h : tldrInclude env g files = .ok items) (layouts : LayoutMap R) (hl : includeBuild env files = .ok layouts)
    (r : R) (hr : r ∈ layouts.keys) (hloc : Local g r) :
    ∃ x ∈ items, Rust.generate g layouts.registry r = .ok x ∧ layoutRef g r = .ok (.path [] x.ident []) ∧
      ((items.map Generated.ident).Nodup → ∀ y ∈ items, y.ident = x.ident → y = x) := by
  obtain ⟨layouts', hl', h2⟩ := C65_one_per_layout env g files items h
  rw [hl] at hl'
  injection hl' with hl'
  subst hl'
  obtain ⟨x, hx, hg, hi⟩ := forall₂_mem h2 hr
  refine ⟨x, hx, hg, ?_, fun hn y hy e => ?_⟩
  · rw [layoutRef_local hloc, hi]
    rfl
  · exact List.inj_on_of_nodup_map hn hy hx e

/-- **C65**: a layout without a name that can be written in Rust, such as an anonymous one, makes the macro fail. -/
theorem C65_anonymous (env : LoadEnv R) (g : GenCtx R) (files : List SourceFile) (layouts : LayoutMap R)
    (hl : includeBuild env files = .ok layouts) (r : R) (hr : r ∈ layouts.keys) (hn : g.idents r = none)
    (hi : ∀ i ∈ g.irisOf r, g.identFromIri i = none) (items : List Generated) : tldrInclude env g files ≠ .ok items := by
  intro h
  obtain ⟨layouts', hl', h2⟩ := C65_one_per_layout env g files items h
  rw [hl] at hl'
  injection hl' with hl'
  subst hl'
  obtain ⟨x, -, -, hx⟩ := forall₂_mem h2 hr
  have : Rust.defaultLayoutIdent g r = none := by
    unfold Rust.defaultLayoutIdent
    generalize g.irisOf r = is at hi
    induction is with
    | nil => rfl
    | cons i is ih =>
      rw [List.foldl_cons, hi i (by simp)]
      exact ih fun i hi' => hi i (by simp [hi'])
  rw [layoutIdent, hn, this] at hx
  cases hx

/-- The files that the tool can read as layout definitions. -/
def isLayoutFile (env : LoadEnv R) : SourceFile → Bool
  | .json j => (Serde.layout env.parse j).isSome
  | _ => false

theorem toolFiles_count {env : LoadEnv R} : ∀ {files : List SourceFile} {b : Builder R} {d : ToolDefault R}
    {s : Builder R × ToolDefault R}, toolFiles env files b d = .ok s →
    (∀ r, s.2 = .some r → (d = .some r ∧ (files.filter (isLayoutFile env)).length = 0) ∨
      (d = .unknown ∧ (files.filter (isLayoutFile env)).length = 1)) := by
  intro files
  induction files with
  | nil =>
    intro b d s h r hr
    simp only [toolFiles, Out.ok.injEq] at h
    subst h
    exact .inl ⟨hr, rfl⟩
  | cons f fs ih =>
    intro b d s h r hr
    cases f with
    | unreadable => cases h
    | notJson => exact ih (b := b) (d := d) h r hr
    | json j =>
      simp only [toolFiles] at h
      split at h
      next hj =>
        have : isLayoutFile env (.json j) = false := by simp [isLayoutFile, hj]
        simp only [List.filter_cons, this]
        exact ih h r hr
      next l hj =>
        have : isLayoutFile env (.json j) = true := by simp [isLayoutFile, hj]
        simp only [List.filter_cons, this, if_true, List.length_cons]
        split at h
        next r' b' _ =>
          rcases ih h r hr with ⟨h1, h2⟩ | ⟨h1, h2⟩
          · cases d with
            | unknown => exact .inr ⟨rfl, by rw [h2]⟩
            | some _ => cases h1
            | none => cases h1
          · cases d <;> cases h1
        next => cases h
        next => cases h
        next => cases h

/-- **C65**, for the tool. Without an option that says which layout to generate, it succeeds only when exactly one of the files
is a layout definition. -/
theorem C65_default_layout (env : LoadEnv R) (g : GenCtx R) (files : List SourceFile) (x : Generated)
    (h : tool env g files none = .ok x) : (files.filter (isLayoutFile env)).length = 1 := by
  simp only [tool, Out.bind_eq_ok] at h
  obtain ⟨s, hs, layouts, -, r, hr, -⟩ := h
  have : s.2 = .some r := by
    unfold toolLayout at hr
    simp only at hr
    split at hr
    next r' he => injection hr with hr; subst hr; exact he
    next => cases hr
  rcases toolFiles_count hs r this with ⟨h1, -⟩ | ⟨-, h2⟩
  · cases h1
  · exact h2

/-- **C65**, for the tool. With this option, it prints the type of this layout, which one of the files defines. -/
theorem C65_given_layout (env : LoadEnv R) (g : GenCtx R) (files : List SourceFile) (r : R) (x : Generated)
    (h : tool env g files (some r) = .ok x) :
    layoutIdent g r = .ok x.ident ∧ ∃ (b : Builder R) (d : ToolDefault R), toolFiles env files ⟨[], 0⟩ .unknown = .ok (b, d) ∧
      r ∈ b.layouts.map Prod.fst := by
  simp only [tool, Out.bind_eq_ok, Out.mapErr_eq_ok] at h
  obtain ⟨⟨b, d⟩, hs, layouts, hb, r', hr, hg⟩ := h
  unfold toolLayout at hr
  split at hr
  next q heq =>
    split at hr
    next hr' =>
      injection hr with hr
      injection heq with heq
      subst hr
      subst heq
      refine ⟨Rust.generate_ident hg, b, d, hs, ?_⟩
      rw [← buildAll_keys (ofTotal_eq_ok.1 hb), mem_keys_iff]
      simpa [LayoutMap.registry] using hr'
    next => cases hr
  next heq => cases heq

/-- **C65**, for the tool. When the files are read, it reports that no layout is given and there is not exactly one layout
definition, or that the given layout is not defined. -/
theorem C65_tool_errors (env : LoadEnv R) (g : GenCtx R) (files : List SourceFile) (b : Builder R) (d : ToolDefault R)
    (layouts : LayoutMap R) (hf : toolFiles env files ⟨[], 0⟩ .unknown = .ok (b, d))
    (hb : buildAll env.debug env.fuel b.layouts = .ok layouts) :
    ((files.filter (isLayoutFile env)).length ≠ 1 → tool env g files none = .err .missingLayout) ∧
    ∀ r, r ∉ b.layouts.map Prod.fst → tool env g files (some r) = .err (.unknownLayout r) := by
  constructor
  · intro h
    have hd : ∀ r, d ≠ .some r := by
      intro r hr
      rcases toolFiles_count hf r hr with ⟨h1, -⟩ | ⟨-, h2⟩
      · cases h1
      · exact h h2
    simp only [tool, hf, hb, Out.bind_ok, Out.ofTotal, toolLayout]
    rfl
  · intro r hr
    have : layouts.registry r = none := by
      rw [← buildAll_keys hb, mem_keys_iff, Bool.not_eq_true, Option.isSome_eq_false_iff, Option.isNone_iff_eq_none] at hr
      rw [LayoutMap.registry, hr]
      rfl
    simp only [tool, hf, hb, Out.bind_ok, Out.ofTotal, toolLayout, this]
    rfl

/-- **C65** is false of invalid files, which the tool reports and then ignores: it prints what it prints without them. -/
theorem C65_invalid_ignored (env : LoadEnv R) (g : GenCtx R) (fs fs' : List SourceFile) (f : SourceFile)
    (hf : f = .notJson ∨ ∃ j, f = .json j ∧ Serde.layout env.parse j = none) (layout : Option R) :
    tool env g (fs ++ f :: fs') layout = tool env g (fs ++ fs') layout := by
  have key : ∀ (b : Builder R) (d : ToolDefault R), toolFiles env (fs ++ f :: fs') b d = toolFiles env (fs ++ fs') b d := by
    induction fs with
    | nil =>
      intro b d
      rcases hf with rfl | ⟨j, rfl, hj⟩
      · rfl
      · simp only [List.nil_append, toolFiles, hj]
    | cons f' fs ih =>
      intro b d
      cases f' with
      | unreadable => rfl
      | notJson => exact ih b d
      | json j =>
        simp only [List.cons_append, toolFiles]
        split
        · exact ih b d
        · split
          · exact ih _ _
          · rfl
          · rfl
          · rfl
  simp only [tool, key]

/-- Whereas the macro fails on an invalid file. -/
theorem C65_invalid_fails (env : LoadEnv R) (g : GenCtx R) (files : List SourceFile) (f : SourceFile) (hm : f ∈ files)
    (hf : ∀ j, f = .json j → Serde.layout env.parse j = none) (items : List Generated) : tldrInclude env g files ≠ .ok items := by
  intro h
  simp only [tldrInclude, includeBuild, Out.bind_eq_ok, Out.mapErr_eq_ok] at h
  obtain ⟨_, ⟨b, hb, -⟩, -⟩ := h
  have key : ∀ (b0 : Builder R), includeFiles env files b0 ≠ .ok b := by
    clear hb
    induction files with
    | nil => cases hm
    | cons f' fs ih =>
      intro b0 hb
      cases f' with
      | unreadable => cases hb
      | notJson => cases hb
      | json j =>
        simp only [includeFiles] at hb
        split at hb
        · cases hb
        · next l hl =>
          split at hb
          · next b' _ =>
            rcases List.mem_cons.1 hm with rfl | hm
            · rw [hf j rfl] at hl; cases hl
            · exact ih hm b' hb
          · cases hb
          · cases hb
          · cases hb
  exact key _ hb

/-! ## Names -/

/-- Names have no underscore, blank or control character, if capitals have none. -/
theorem C65_name_characters (lib : CharLib) (hu : ∀ c, lib.skip c = false → c ≠ '_' → ∀ d ∈ lib.upper c, lib.skip d = false ∧ d ≠ '_')
    (s : List Char) : ∀ c ∈ Rust.pascalCase lib s, lib.skip c = false ∧ c ≠ '_' := Rust.pascalLoop_no_skip lib hu true s

/-- The name given to an IRI with a fragment depends on nothing else than the fragment. -/
theorem C65_name_fragment (lib : CharLib) (p : String → Option String) (i j : String)
    (hi : Rust.fragment i.toList = Rust.fragment j.toList) (hf : (Rust.fragment i.toList).isSome = true) :
    Rust.identFromIri lib p i = Rust.identFromIri lib p j := by
  unfold Rust.identFromIri
  rw [← hi]
  cases h : Rust.fragment i.toList with
  | none => rw [h] at hf; cases hf
  | some f => rfl

/-- The name of a type is taken from the fragment of the IRI of the layout; if it has none, from the last segment of its path; if the path
is empty, the layout has no name. The scheme, the authority, the query and the other segments are ignored. -/
theorem C65_name_parts (lib : CharLib) (p : String → Option String) (i : Rust.IriParts) (h : i.Valid) :
    Rust.identFromIri lib p (String.ofList i.text) =
      (i.fragment.or (if i.directory ++ i.segment = [] then none else some i.segment)).bind fun s =>
        p (String.ofList (Rust.pascalCase lib s)) := by
  rw [Rust.identFromIri, String.toList_ofList, Rust.fragment_text h, Rust.path_text h, Rust.lastSegment_text h]
  cases i.fragment with
  | some f => rfl
  | none => simp

end Verif.Props

namespace Verif.RaExample

open Verif.Rust

/-- ASCII. -/
def chars : CharLib := ⟨fun c => [c.toUpper], Char.isWhitespace⟩

def parseIdent (s : String) : Option String := if s.toList.isEmpty then none else some s

def gen : GenCtx String := { Props.RsExample.gen with parseIdent := parseIdent, identFromIri := identFromIri chars parseIdent }

def env : LoadEnv String := ⟨SpExample.lib, Props.RsExample.ctx, false, 0⟩

/-- `{ "type": "string", "id": i }`. -/
def text (i : String) : SourceFile := .json (.object [("type", .string "string"), ("id", .string i)])

/-- `{ "type": "record", "id": "ex:#person", "fields": { "name": { "property": "ex:name", "value": "ex:#full_name" } } }`. -/
def person : SourceFile := .json (.object [("type", .string "record"), ("id", .string "ex:#person"),
  ("fields", .object [("name", .object [("property", .string "ex:name"), ("value", .string "ex:#full_name")])])])

/-- The same record, with the definition of the layout of the field in place of its name. -/
def inlined : SourceFile := .json (.object [("type", .string "record"), ("id", .string "ex:#person"),
  ("fields", .object [("name", .object [("property", .string "ex:name"), ("value", .object [("type", .string "string")])])])])

/-- The names of what is generated. -/
def names (files : List SourceFile) : Option (List String) :=
  match tldrInclude env gen files with
  | .ok items => some (items.map Generated.ident)
  | _ => none

/-- The macro aborts because a layout has no name. -/
def unnamed (files : List SourceFile) : Bool :=
  match tldrInclude env gen files with
  | .err (.generator (.missingTypeIdentifier _)) => true
  | _ => false

example : names [person, text "ex:#full_name"] = some ["FullName", "Person"] := by decide +kernel

/-- The hypotheses of `C65_references_partial`. -/
example : Props.Local gen "ex:#full_name" := by
  intro i hi
  have : i = "ex:#full_name" := by simpa [gen, Props.RsExample.gen, Props.RsExample.lib] using hi
  subst this
  exact ⟨by decide +kernel, by simp [gen, Props.RsExample.gen]⟩

/-- `https://example.org/layouts/postal_address?v=1`. -/
def address : IriParts := ⟨"https".toList, some "example.org".toList, "/layouts/".toList, "postal_address".toList, some "v=1".toList, none⟩

example : address.Valid := by
  refine ⟨by decide +kernel, fun a h => ?_, by decide +kernel, .inr ⟨"/layouts".toList, by decide +kernel⟩, by decide +kernel,
    fun q h => ?_, fun _ => .inr ⟨"layouts/postal_address".toList, by decide +kernel⟩, fun h => nomatch h⟩
  · cases h; decide +kernel
  · cases h; decide +kernel

example : address.text = "https://example.org/layouts/postal_address?v=1".toList := by decide +kernel
example : identFromIri chars parseIdent "https://example.org/layouts/postal_address?v=1" = some "PostalAddress" := by decide +kernel
example : identFromIri chars parseIdent "https://example.org" = none := by decide +kernel
example : identFromIri chars parseIdent "https://example.org?v=layouts/postal" = none := by decide +kernel
example : identFromIri chars parseIdent "urn:layouts/postal_address" = some "PostalAddress" := by decide +kernel

/-- The tool prints the type of the only layout definition among the files, one of which is not JSON. -/
example : (match tool env gen [.notJson, text "ex:#name"] none with
    | .ok x => x.ident
    | _ => "") = "Name" := by decide +kernel

/-- The tool does not choose between two layout definitions, and does not print a layout that is not defined. -/
example : (match tool env gen [text "ex:#name", text "ex:#other"] none, tool env gen [text "ex:#name"] (some "ex:#other") with
    | .err .missingLayout, .err (.unknownLayout r) => r
    | _, _ => "") = "ex:#other" := by decide +kernel

end Verif.RaExample

namespace Verif.Props.Witness

open Verif.RaExample

/-- **C65** is false of layouts whose names only differ by case and underscores, or by what comes before the `#`: the types
generated for them have the same name. -/
theorem C65_same_name : names [text "ex:#my_name", text "ex:#MyName"] = some ["MyName", "MyName"] ∧
    names [text "ex:a#name", text "ex:b#name"] = some ["Name", "Name"] :=
  ⟨by decide +kernel, by decide +kernel⟩

/-- **C65** is false of layouts defined in place, for which the macro aborts. -/
theorem C65_nested : unnamed [inlined] = true := by decide +kernel

end Verif.Props.Witness
