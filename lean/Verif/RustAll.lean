import Verif.RustLemmas
import Verif.Cli
import Verif.SyntaxSerde

/-!
# The macros `tldr` and `tldr_include`: generating code for all the layouts of some files

The names of types (`ident_from_iri`, `PascalCase`) are modelled on lists of characters.
-/

set_option linter.unusedSectionVars false
set_option linter.unusedSimpArgs false

namespace Verif.Rust

variable {R : Type} [DecidableEq R]

/-! ## Names -/

/-- What `char` provides: `to_uppercase`, and `is_whitespace() || is_control()`. -/
structure CharLib where
  upper : Char → List Char
  skip : Char → Bool

/-- The loop of `PascalCase`. `generators/rust/generator/src/utils.rs` L17-35. -/
def pascalLoop (lib : CharLib) : Bool → List Char → List Char
  | _, [] => []
  | up, c :: cs =>
    if lib.skip c || c == '_' then pascalLoop lib true cs
    else if up then lib.upper c ++ pascalLoop lib false cs
    else c :: pascalLoop lib false cs

/-- `PascalCase(s).to_string()`. `generators/rust/generator/src/utils.rs` L15-35. -/
def pascalCase (lib : CharLib) (s : List Char) : List Char := pascalLoop lib true s

/-- `Iri::fragment`: what follows the first `#`. -/
def fragment (iri : List Char) : Option (List Char) :=
  match iri.dropWhile (· != '#') with
  | [] => none
  | _ :: f => some f

/-- `Iri::path`: what is left of the IRI without scheme, authority, query and fragment. -/
def path (iri : List Char) : List Char :=
  let p := match (iri.dropWhile (· != ':')).drop 1 with
    | '/' :: '/' :: rest => rest.dropWhile fun c => c != '/' && c != '?' && c != '#'
    | rest => rest
  p.takeWhile fun c => c != '?' && c != '#'

/-- `Path::segments().last()`: what follows the last `/`. An empty path has no segment. -/
def lastSegment (path : List Char) : Option (List Char) :=
  if path.isEmpty then none else some (path.reverse.takeWhile (· != '/')).reverse

/-- `ident_from_iri`. `generators/rust/generator/src/utils.rs` L4-13. -/
def identFromIri (lib : CharLib) (parseIdent : String → Option String) (iri : String) : Option String :=
  match fragment iri.toList with
  | some f => parseIdent (String.ofList (pascalCase lib f))
  | none => (lastSegment (path iri.toList)).bind fun s => parseIdent (String.ofList (pascalCase lib s))

/-! ## All the layouts -/

/-- The name of what is generated. -/
def Generated.ident : Generated → String
  | .alias i _ => i
  | .item i => i.ident

/-- Why the macros abort: `Error` of `generators/rust/treeldr-rs-macros/src/lib.rs` L25-32, and that of the generator. -/
inductive IncludeError (R : Type) where
  | json
  | layout (e : BuildError)
  | generator (e : GenError R)

/-- The loop of `Attribute::build`. A file that cannot be read makes the macro panic (`unwrap`). Each file starts a new blank
node generator, in the same builder. `generators/rust/treeldr-rs-macros/src/lib.rs` L40-52. -/
def includeFiles (env : LoadEnv R) : List SourceFile → Builder R → Out (IncludeError R) (Builder R)
  | [], b => .ok b
  | .unreadable :: _, _ => .panic
  | .notJson :: _, _ => .err .json
  | .json j :: fs, b =>
    match Serde.layout env.parse j with
    | none => .err .json
    | some l =>
      match l.buildTop env.ctx b with
      | (.ok _, b) => includeFiles env fs b
      | (.err e, _) => .err (.layout e)
      | (.panic, _) => .panic
      | (.fuel, _) => .fuel

/-- `Attribute::build`. `generators/rust/treeldr-rs-macros/src/lib.rs` L37-55. -/
def includeBuild (env : LoadEnv R) (files : List SourceFile) : Out (IncludeError R) (LayoutMap R) :=
  (includeFiles env files ⟨[], 0⟩).bind fun b => Out.ofTotal (buildAll env.debug env.fuel b.layouts)

/-- `generate_layouts`: the items generated for the layouts, in their order, up to the first error, on which the macro
aborts. `generators/rust/treeldr-rs-macros/src/lib.rs` L66-89. -/
def generateLayouts (g : GenCtx R) (layouts : LayoutMap R) : Out (GenError R) (List Generated) :=
  Out.mapM' (fun e => generate g layouts.registry e.1) layouts

/-- `tldr_include`, and the content of the module of `tldr`: `g` has the modules of its `use` items.
`generators/rust/treeldr-rs-macros/src/lib.rs` L100-211. The `use` items are kept as they are. -/
def tldrInclude (env : LoadEnv R) (g : GenCtx R) (files : List SourceFile) : Out (IncludeError R) (List Generated) :=
  (includeBuild env files).bind fun layouts => (generateLayouts g layouts).mapErr .generator

/-- `DefaultLayoutRef`. `generators/rust/generator/src/bin/main.rs` L21-35. -/
inductive ToolDefault (R : Type) where
  | unknown
  | some (r : R)
  | none

/-- `DefaultLayoutRef::set`. -/
def ToolDefault.set {R : Type} (r : R) : ToolDefault R → ToolDefault R
  | unknown => .some r
  | .some _ => .none
  | .none => .none

/-- Why `tldr-rs` fails. `generators/rust/generator/src/bin/main.rs` L58-61, L77-78, L84-85, L100-103. -/
inductive ToolError (R : Type) where
  | compile (e : BuildError)
  | unknownLayout (r : R)
  | missingLayout
  | generator (e : GenError R)

/-- The loop of `main` over the files: a file that is not a layout definition is reported, and skipped.
`generators/rust/generator/src/bin/main.rs` L52-67. -/
def toolFiles (env : LoadEnv R) : List SourceFile → Builder R → ToolDefault R → Out (ToolError R) (Builder R × ToolDefault R)
  | [], b, d => .ok (b, d)
  | .unreadable :: _, _, _ => .panic
  | .notJson :: fs, b, d => toolFiles env fs b d
  | .json j :: fs, b, d =>
    match Serde.layout env.parse j with
    | none => toolFiles env fs b d
    | some l =>
      match l.buildTop env.ctx b with
      | (.ok r, b) => toolFiles env fs b (d.set r)
      | (.err e, _) => .err (.compile e)
      | (.panic, _) => .panic
      | (.fuel, _) => .fuel

/-- The layout to generate. `generators/rust/generator/src/bin/main.rs` L71-88. -/
def toolLayout (layouts : LayoutMap R) (d : ToolDefault R) : Option R → Out (ToolError R) R
  | some r => if (layouts.registry r).isSome then .ok r else .err (.unknownLayout r)
  | none =>
    match d with
    | .some r => .ok r
    | _ => .err .missingLayout

/-- `tldr-rs`: what is printed. `generators/rust/generator/src/bin/main.rs` L37-105. -/
def tool (env : LoadEnv R) (g : GenCtx R) (files : List SourceFile) (layout : Option R) : Out (ToolError R) Generated :=
  (toolFiles env files ⟨[], 0⟩ .unknown).bind fun s =>
  (Out.ofTotal (buildAll env.debug env.fuel s.1.layouts) : Out (ToolError R) (LayoutMap R)).bind fun (layouts : LayoutMap R) =>
  (toolLayout layouts s.2 layout).bind fun r =>
  (generate g layouts.registry r).mapErr .generator

/-- `Options::use_module`. `generators/rust/generator/src/lib.rs` L62-72. The paths of `use` items have no arguments
(`use_tree_ident`), so it cannot fail. -/
def useModule (g : GenCtx R) (pre : String) (path : List String) : GenCtx R :=
  { g with externModules := bmapInsert strLe pre path g.externModules }

/-! ## Lemmas -/

theorem literalItem_ident {g : GenCtx R} {ident : String} {before : List (List Tok)} {input intro : Nat} {ds : List (QuadPat R)}
    {fs : RFields} {x : Generated} (h : literalItem g ident before input intro ds fs = .ok x) : x.ident = ident := by
  simp only [literalItem, Out.bind_eq_ok] at h
  obtain ⟨_, -, h⟩ := h
  injection h with h
  subst h
  rfl

/-- What is generated for a layout has the name that `layout_ident` gives. -/
theorem generate_ident {g : GenCtx R} {layouts : Registry R} {r : R} {x : Generated} (h : generate g layouts r = .ok x) :
    layoutIdent g r = .ok x.ident := by
  unfold generate at h
  split at h
  · simp at h
  · next l _ =>
    simp only [Out.bind_eq_ok] at h
    obtain ⟨id, hid, h⟩ := h
    rw [hid]
    congr 1
    cases l with
    | always => injection h with h; subst h; rfl
    | never => injection h with h; subst h; rfl
    | unit l => exact (literalItem_ident h).symm
    | boolean l => exact (literalItem_ident h).symm
    | number l => exact (literalItem_ident h).symm
    | textString l => exact (literalItem_ident h).symm
    | byteString l => exact (literalItem_ident h).symm
    | id l => exact (literalItem_ident h).symm
    | product l =>
      simp only [Out.bind_eq_ok] at h
      obtain ⟨_, -, _, -, h⟩ := h
      injection h with h; subst h; rfl
    | sum l =>
      simp only [Out.bind_eq_ok] at h
      obtain ⟨_, -, _, -, h⟩ := h
      injection h with h; subst h; rfl
    | unordered l =>
      simp only [Out.bind_eq_ok] at h
      obtain ⟨_, -, _, -, h⟩ := h
      injection h with h; subst h; rfl
    | ordered l =>
      simp only [Out.bind_eq_ok] at h
      obtain ⟨_, -, _, -, _, -, _, -, h⟩ := h
      injection h with h; subst h; rfl
    | sized l =>
      simp only [Out.bind_eq_ok] at h
      obtain ⟨_, -, _, -, h⟩ := h
      injection h with h; subst h; rfl

theorem pascalLoop_no_skip (lib : CharLib) (hu : ∀ c, lib.skip c = false → c ≠ '_' → ∀ d ∈ lib.upper c, lib.skip d = false ∧ d ≠ '_')
    (up : Bool) (s : List Char) : ∀ c ∈ pascalLoop lib up s, lib.skip c = false ∧ c ≠ '_' := by
  induction s generalizing up with
  | nil => simp [pascalLoop]
  | cons c s ih =>
    intro d hd
    simp only [pascalLoop] at hd
    split at hd
    · exact ih _ d hd
    · next hc =>
      simp only [Bool.or_eq_true, beq_iff_eq, not_or, Bool.not_eq_true] at hc
      split at hd
      · rcases List.mem_append.1 hd with hd | hd
        · exact hu c hc.1 hc.2 d hd
        · exact ih _ d hd
      · rcases List.mem_cons.1 hd with rfl | hd
        · exact hc
        · exact ih _ d hd

/-- Writing in Pascal case twice is writing in Pascal case once. -/
theorem pascalLoop_of_no_skip (lib : CharLib) (s : List Char) (h : ∀ c ∈ s, lib.skip c = false ∧ c ≠ '_') :
    pascalLoop lib false s = s := by
  induction s with
  | nil => rfl
  | cons c s ih =>
    have hc := h c (by simp)
    simp only [pascalLoop, hc.1, beq_eq_false_iff_ne.2 hc.2, Bool.or_self, Bool.false_eq_true, if_false]
    rw [ih fun d hd => h d (by simp [hd])]

end Verif.Rust
