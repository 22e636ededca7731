import Verif.CliLemmas
import Verif.RegistryLocal
import Verif.Prelude
import Verif.Props.SyntaxParse
import Verif.RoundTripBack

/-!
# Properties of registries, of the prelude, and of the command line tool
-/

set_option linter.unusedSectionVars false
set_option linter.unusedSimpArgs false

namespace Verif

namespace CliExample

def env : LoadEnv Term := ⟨SpExample.lib, SyExample.ctx, false, 0⟩

/-- A file that defines the layout `ex:Point`. -/
def point : SourceFile := .json (.object SpExample.doc)

/-- A file that defines an unnamed layout. -/
def anything : SourceFile := .json (.boolean true)

/-- Whether the files are loaded, with the given default layout. -/
def loaded (args : CliArgs) (p : DefaultLayout Term → Bool) : Bool :=
  match prepare env (fun _ => none) args with
  | .ok r => p r.2
  | _ => false

/-- Whether the loading of a file fails because of a redefinition. -/
def redefined (args : CliArgs) (i : Nat) : Bool :=
  match prepare env (fun _ => none) args with
  | .err (.layoutBuild j .layoutRedefinition) => i == j
  | _ => false

end CliExample

namespace Props

/-! ## C36: registries -/

/-- **C36**. The layout found in `a.with(b)` is that of `a` if there is one, and else that of `b`. -/
theorem C36_with {R : Type _} (a b : Registry R) (r : R) (l : Layout R) :
    Registry.including a b r = some l ↔ a r = some l ∨ a r = none ∧ b r = some l := by
  unfold Registry.including Registry.union
  cases a r <;> simp

/-- **C36**. `a.with(b)` contains what `a` or `b` contains. -/
theorem C36_contains {R : Type _} (a b : Registry R) (r : R) :
    (Registry.including a b).contains r = true ↔ a.contains r = true ∨ b.contains r = true := by
  simp only [Registry.including, Registry.union, Registry.contains]
  cases a r <;> simp

/-- **C36**. An absent registry contains nothing. -/
theorem C36_absent {R : Type _} (a : Registry R) : Registry.including a (Registry.optional none) = a := by
  funext r
  unfold Registry.including Registry.union Registry.optional
  cases a r <;> rfl

variable {R : Type} [DecidableEq R]

theorem lookup_of_mem_nodup {α : Type} {m : List (R × α)} {r : R} {x : α} (hw : (m.map Prod.fst).Nodup) (hx : (r, x) ∈ m) :
    m.lookup r = some x := by
  induction m with
  | nil => cases hx
  | cons y m ih =>
    obtain ⟨r', y⟩ := y
    simp only [List.map_cons, List.nodup_cons] at hw
    rw [lookup_cons_ite]
    rcases List.mem_cons.1 hx with hx | hx
    · obtain ⟨rfl, rfl⟩ := Prod.mk.inj hx
      simp
    · rw [if_neg fun (h : r = r') => hw.1 (List.mem_map.2 ⟨(r, x), hx, h⟩)]
      exact ih hw.2 hx

/-- **C36**, in the command line tool. A layout defined by one of the files is found, whatever the prelude says; a reference that
no file defines is looked up in the prelude, unless it is disabled. -/
theorem C36_cli (env : LoadEnv R) (prelude : Registry R) (args : CliArgs) (reg : Registry R) (d : DefaultLayout R)
    (h : prepare env prelude args = .ok (reg, d)) :
    ∃ ds, Loads env 0 0 (args.layouts ++ args.includes) ds ∧
      (∀ d ∈ ds, ∀ r l x, (r, l, x) ∈ d.2.1 → reg r = some l) ∧
      ∀ r, (∀ d ∈ ds, r ∉ d.2.1.keys) → reg r = if args.noPrelude then none else prelude r := by
  rw [prepare_eq] at h
  simp only [Out.bind_eq_ok, Out.ok.injEq, Prod.mk.injEq] at h
  obtain ⟨⟨rs, st⟩, h1, ⟨rs', st'⟩, h2, rfl, rfl⟩ := h
  have h3 : loadAll env (args.layouts ++ args.includes) {} = .ok (rs ++ rs', st') := by
    simp [loadAll_append, h1, h2]
  obtain ⟨ds, hl, -, hc, hk⟩ := loadAll_ok h3
  refine ⟨ds, hl, fun d hd r l x hx => ?_, fun r hr => ?_⟩
  · have hw := hl.wellFormed d hd
    have hx' : d.2.1.lookup r = some (l, x) := lookup_of_mem_nodup hw hx
    have hf : ∀ (ds : List (FileDefs R)), NoClash (ds.map fun d => d.2.1) → d ∈ ds →
        firstLookup (ds.map fun d => d.2.1) r = some (l, x) := by
      intro ds
      induction ds with
      | nil => intro _ h; cases h
      | cons d' ds ih =>
        intro hn hd
        simp only [NoClash, List.map_cons, List.pairwise_cons] at hn
        rw [List.map_cons, or_firstLookup]
        rcases List.mem_cons.1 hd with rfl | hd
        · simp [hx']
        · have : d'.2.1.lookup r = none := by
            refine lookup_none_iff.2 fun hc => ?_
            refine hn.1 d.2.1 (List.mem_map.2 ⟨d, hd, rfl⟩) r hc ?_
            exact mem_keys_iff.2 (by simp [hx'])
          rw [this, Option.none_or]
          exact ih hn.2 hd
    have hfl := hf ds (List.pairwise_cons.1 hc).2 hd
    have := hk r
    rw [hfl] at this
    simp only [Registry.including, Registry.union, LayoutMap.registry, this]
    rfl
  · have := hk r
    rw [firstLookup_none.2 (by
      intro m hm
      obtain ⟨d, hd, rfl⟩ := List.mem_map.1 hm
      exact hr d hd)] at this
    simp only [Registry.including, Registry.union, LayoutMap.registry, this]
    cases args.noPrelude <;> simp [Registry.optional]

/-! ## C37: the default layout -/

/-- **C37**. Once the files are loaded, the layout to use is the one asked for; failing that, that of the only layout file;
failing that, an error. Included files, and the prelude, do not matter. -/
theorem C37 (env : LoadEnv R) (prelude : Registry R) (args : CliArgs) (reg : Registry R) (d : DefaultLayout R)
    (h : prepare env prelude args = .ok (reg, d)) :
    (∀ r, d.get (some r) = .ok r) ∧
    (args.layouts = [] → d.get none = .err .noDefaultLayout) ∧
    (∀ f, args.layouts = [f] → ∃ j l b r, f = .json j ∧ parseLayout env.parse j = .ok l ∧
      l.buildWithContext env.ctx ⟨[], 0⟩ = (.ok r, b) ∧ d.get none = .ok r) ∧
    (2 ≤ args.layouts.length → d.get none = .err .ambiguousDefaultLayout) := by
  rw [prepare_eq] at h
  simp only [Out.bind_eq_ok, Out.ok.injEq, Prod.mk.injEq] at h
  obtain ⟨⟨rs, st⟩, h1, -, -, -, rfl⟩ := h
  obtain ⟨ds, hl, rfl, -, -⟩ := loadAll_ok h1
  refine ⟨fun r => rfl, fun h0 => ?_, fun f hf => ?_, fun h2 => ?_⟩
  · rw [h0] at hl
    cases hl
    rfl
  · rw [hf] at hl
    cases hl with
    | cons hd hn =>
      cases hn
      obtain ⟨l, b, hp, hb, -, -⟩ := loadDocument_ok hd
      exact ⟨_, l, b, _, rfl, hp, hb, rfl⟩
  · have := hl.length
    match ds, this with
    | [], h => simp at h; omega
    | [_], h => simp at h; omega
    | _ :: _ :: _, _ => rfl

/-- **C37**, for the commands: without a layout file, or with several, the layout must be given. -/
theorem C37_commands (env : CommandEnv) (args : CliArgs) (p : Registry Term × DefaultLayout Term)
    (h : prepare env.load env.prelude args = .ok p) :
    (args.layouts = [] → (∀ s ds, hydrateCommand env args none s ds = .err .noDefaultLayout) ∧
      ∀ j, dehydrateCommand env args none j = .err .noDefaultLayout) ∧
    (2 ≤ args.layouts.length → (∀ s ds, hydrateCommand env args none s ds = .err .ambiguousDefaultLayout) ∧
      ∀ j, dehydrateCommand env args none j = .err .ambiguousDefaultLayout) := by
  obtain ⟨reg, d⟩ := p
  obtain ⟨-, h0, -, h2⟩ := C37 _ _ _ _ _ h
  refine ⟨fun hn => ⟨fun s ds => ?_, fun j => ?_⟩, fun hn => ⟨fun s ds => ?_, fun j => ?_⟩⟩
  · simp [hydrateCommand, h, h0 hn]
  · simp [dehydrateCommand, h, h0 hn]
  · simp [hydrateCommand, h, h2 hn]
  · simp [dehydrateCommand, h, h2 hn]

/-- **C37**, for the commands: a layout given on the command line is the one that the input goes through, whatever the layout
files; and without one, that of the only layout file. -/
theorem C37_selected (env : CommandEnv) (args : CliArgs) (reg : Registry Term) (d : DefaultLayout Term)
    (h : prepare env.load env.prelude args = .ok (reg, d)) (layout : Option Term) (r : Term)
    (hr : layout = some r ∨ layout = none ∧ d = .some r) :
    (∀ subjects ds j, hydrateCommand env args layout subjects (some ds) = .ok j ↔
      ∃ v, Hydrate.hydrate (HyCtx.ofTerms reg env.xsd env.le ds) env.depth none r subjects = .ok v ∧ v.untype.toJson = .ok j) ∧
    (∀ j ds, dehydrateCommand env args layout (some j) = .ok ds ↔
      ∃ v ids, j.toValue = .ok v ∧ Dehydrate.dehydrate ⟨reg, env.isIri, env.xsd⟩ env.depth v r env.options = .ok (ds, ids)) := by
  have hg : d.get layout = .ok r := by
    obtain rfl | ⟨rfl, rfl⟩ := hr <;> rfl
  constructor
  · intro subjects ds j
    simp only [hydrateCommand, h, Out.bind_ok, hg]
    cases hh : Hydrate.hydrate (HyCtx.ofTerms reg env.xsd env.le ds) env.depth none r subjects with
    | ok v => cases hj : v.untype.toJson <;> simp [Out.mapErr, hj]
    | _ => simp [Out.mapErr]
  · intro j ds
    simp only [dehydrateCommand, h, Out.bind_ok, hg]
    cases hv : j.toValue with
    | ok v =>
      simp only [Out.ofTotal, Out.bind_ok]
      cases hh : Dehydrate.dehydrate ⟨reg, env.isIri, env.xsd⟩ env.depth v r env.options with
      | ok p => simp [Out.mapErr, Prod.ext_iff]; aesop
      | _ => simp_all [Out.mapErr]
    | err e => exact e.elim
    | _ => simp [Out.ofTotal]

/-- One layout file and an included one; two layout files; none. -/
example : CliExample.loaded ⟨[CliExample.point], [CliExample.anything], false⟩
    (fun | .some r => r = .iri "ex:Point" | _ => false) = true := by decide +kernel
example : CliExample.loaded ⟨[CliExample.point, CliExample.anything], [], false⟩
    (fun | .ambiguous => true | _ => false) = true := by decide +kernel
example : CliExample.loaded ⟨[], [CliExample.point], false⟩ (fun | .none => true | _ => false) = true := by decide +kernel

/-! ## C38: dependencies -/

/-- **C38**. `dependencies` lists the references that the layout mentions, in increasing order, each once. -/
theorem C38 {R : Type _} [DecidableEq R] (le : R → R → Bool) (ht : TotalOrder le) (l : Layout R) :
    (∀ r, r ∈ l.dependencies le ↔ l.Mentions r) ∧ (l.dependencies le).Pairwise (fun a b => le a b = true ∧ a ≠ b) := by
  constructor
  · intro r
    rw [Layout.dependencies, mem_dedupAdjacent, (sortBy_perm le _).mem_iff, mem_visitDependencies]
  · exact pairwise_dedupAdjacent ht _ (pairwise_sortBy ht.total ht.trans _)

/-- A sum of three variants, two of which have the same layout. -/
example : (Layout.sum { input := 1, intro := 0, dataset := [], variants :=
    [⟨"a", 0, ⟨3, [], none⟩, []⟩, ⟨"b", 0, ⟨1, [], none⟩, []⟩, ⟨"c", 0, ⟨3, [], none⟩, []⟩] } : Layout Nat).dependencies
      (fun a b => decide (a ≤ b)) = [1, 3] := by decide

/-! ## C58: loading several files -/

/-- All files are loaded in turn. -/
theorem prepare_all (env : LoadEnv R) (prelude : Registry R) (args : CliArgs) :
    prepare env prelude args = (loadAll env (args.layouts ++ args.includes) {}).bind fun s =>
      .ok (Registry.including s.2.layouts.registry (Registry.optional (if args.noPrelude then none else some prelude)),
        defaultOf (s.1.take args.layouts.length)) := by
  rw [prepare_eq, loadAll_append]
  cases h1 : loadAll env args.layouts {} with
  | ok r =>
    simp only [Out.bind]
    cases h2 : loadAll env args.includes r.2 with
    | ok s =>
      simp only [Out.bind]
      obtain ⟨ds, hl, hr, -⟩ := loadAll_ok (rs := r.1) (st' := r.2) h1
      have : r.1.length = args.layouts.length := by rw [hr, List.length_map, hl.length]
      rw [← this, List.take_left]
    | _ => rfl
  | _ => rfl

/-- **C58**. If the files stand for definitions, they are all loaded provided that no identifier is defined by two of them, and
otherwise the redefinition is reported for one of the files: a layout is never silently replaced. -/
theorem C58_redefinition (env : LoadEnv R) (prelude : Registry R) (args : CliArgs) (ds : List (FileDefs R))
    (h : Loads env 0 0 (args.layouts ++ args.includes) ds) :
    (NoClash (ds.map fun d => d.2.1) → ∃ p, prepare env prelude args = .ok p) ∧
    (¬ NoClash (ds.map fun d => d.2.1) → ∃ i, i < (args.layouts ++ args.includes).length ∧
      prepare env prelude args = .err (.layoutBuild i .layoutRedefinition)) := by
  have hp := prepare_all env prelude args
  obtain ⟨h1, h2⟩ := loadAll_loads (st := {}) h
  have hn : NoClash (({} : CliState R).layouts :: ds.map fun d => d.2.1) ↔ NoClash (ds.map fun d => d.2.1) := by
    simp [NoClash, LayoutMap.keys]
  refine ⟨fun hc => ?_, fun hc => ?_⟩
  · obtain ⟨r, hr⟩ := h1 (hn.2 hc)
    exact ⟨_, by rw [hp, hr]; rfl⟩
  · obtain ⟨i, hi, he⟩ := h2 (fun h => hc (hn.1 h)) (by simp [LayoutMap.keys])
    refine ⟨i, hi, ?_⟩
    rw [hp, he]
    simp [Out.bind]

/-- The same file twice. -/
example : CliExample.redefined ⟨[CliExample.point], [CliExample.point], false⟩ 1 = true := by decide +kernel

/-- **C58**, the converse: if the files could be loaded, no identifier is defined by two of them. -/
theorem C58_loaded (env : LoadEnv R) (prelude : Registry R) (args : CliArgs) (p : Registry R × DefaultLayout R)
    (h : prepare env prelude args = .ok p) :
    ∃ ds, Loads env 0 0 (args.layouts ++ args.includes) ds ∧ NoClash (ds.map fun d => d.2.1) := by
  obtain ⟨ds, hl, -⟩ := C36_cli env prelude args p.1 p.2 h
  refine ⟨ds, hl, Classical.byContradiction fun hc => ?_⟩
  obtain ⟨i, -, he⟩ := (C58_redefinition env prelude args ds hl).2 hc
  rw [h] at he
  cases he

/-- The number of a file is the number of files before it. -/
theorem loadAll_files {env : LoadEnv R} (fs : List SourceFile) : ∀ {st : CliState R} {r : List R × CliState R},
    loadAll env fs st = .ok r → r.2.files = st.files + fs.length := by
  induction fs with
  | nil => intro st r h; simp only [loadAll, Out.ok.injEq] at h; subst h; rfl
  | cons f fs ih =>
    intro st r h
    simp only [loadAll, Out.bind_eq_ok, Out.ok.injEq] at h
    obtain ⟨r1, h1, r2, h2, rfl⟩ := h
    rw [ih h2]
    cases f with
    | unreadable => cases h1
    | notJson => cases h1
    | json j =>
      simp only [loadLayout, Out.bind_eq_ok, Out.ok.injEq] at h1
      obtain ⟨d, -, m, -, rfl⟩ := h1
      simp only [List.length_cons]
      omega

/-- **C58**, errors. Files are loaded in order, and the first that is not a layout is reported with its number: it cannot be read, it
is not JSON, or it is not a layout definition. -/
theorem C58_first_error (env : LoadEnv R) (prelude : Registry R) (args : CliArgs) (fs : List SourceFile) (f : SourceFile)
    (rest : List SourceFile) (hs : args.layouts ++ args.includes = fs ++ f :: rest) (np : Bool)
    (p : Registry R × DefaultLayout R) (hfs : prepare env prelude ⟨fs, [], np⟩ = .ok p) :
    (f = .unreadable → prepare env prelude args = .err .io) ∧
    (f = .notJson → prepare env prelude args = .err (.jsonSyntax fs.length)) ∧
    ∀ j e, f = .json j → parseLayout env.parse j = .err e → prepare env prelude args = .err (.layoutSyntax fs.length e) := by
  rw [prepare_all] at hfs
  simp only [List.append_nil, Out.bind_eq_ok] at hfs
  obtain ⟨r, hr, -⟩ := hfs
  have hn := loadAll_files fs hr
  simp only [Nat.zero_add] at hn
  rw [prepare_all, hs, loadAll_append, hr]
  refine ⟨?_, ?_, ?_⟩
  · rintro rfl
    simp only [Out.bind, loadAll, loadLayout]
  · rintro rfl
    simp only [Out.bind, loadAll, loadLayout, hn]
  · rintro j e rfl he
    simp only [Out.bind, loadAll, loadLayout, loadDocument, he, Out.mapErr, hn]

/-- The second file is not JSON. -/
example : (match prepare CliExample.env (fun _ => none) ⟨[CliExample.point, .notJson], [.unreadable], false⟩ with
    | .err (.jsonSyntax 1) => true | _ => false) = true := by decide +kernel

/-- The document of the file has a layout with an explicit identifier. -/
def FileNamed (lib : ParseLib) : SourceFile → Prop
  | .json j => ∃ l, parseLayout lib j = .ok l ∧ l.named = true
  | _ => False

/-- The identifiers of a sequence of files: IRIs of named files, or generated. -/
theorem loads_keys {env : LoadEnv R} {n k : Nat} {fs : List SourceFile} {ds : List (FileDefs R)} (h : Loads env n k fs ds) :
    ∀ d ∈ ds, ∀ r ∈ d.2.1.keys, ((∃ f ∈ fs, FileNamed env.parse f) ∧ ∃ i, r = env.ctx.iri i) ∨ ∃ m, k ≤ m ∧ r = env.ctx.fresh m := by
  induction h with
  | nil => intro d hd; cases hd
  | @cons n k j fs d ds hd _ ih =>
    obtain ⟨hk, hkeys⟩ := loadDocument_unnamed hd
    intro d' hd' r hr
    rcases List.mem_cons.1 hd' with rfl | hd'
    · rcases hkeys r hr with ⟨l, hl, hn, hi⟩ | ⟨m, h1, -, h2⟩
      · exact .inl ⟨⟨_, List.mem_cons_self .., l, hl, hn⟩, hi⟩
      · exact .inr ⟨m, h1, h2⟩
    · rcases ih d' hd' r hr with ⟨⟨f, hf, hf'⟩, hi⟩ | ⟨m, h1, h2⟩
      · exact .inl ⟨⟨f, List.mem_cons_of_mem _ hf, hf'⟩, hi⟩
      · exact .inr ⟨m, Nat.le_trans hk h1, h2⟩

/-- **C58**, unnamed layouts. Layouts without explicit identifiers never clash: if at most one of the files has explicit
identifiers, there is no redefinition. -/
theorem C58_unnamed (env : LoadEnv R) (hc : env.ctx.FreshLaws) (prelude : Registry R) (args : CliArgs) (ds : List (FileDefs R))
    (h : Loads env 0 0 (args.layouts ++ args.includes) ds)
    (hn : (args.layouts ++ args.includes).Pairwise fun f g => ¬ (FileNamed env.parse f ∧ FileNamed env.parse g)) :
    ∃ p, prepare env prelude args = .ok p := by
  refine (C58_redefinition env prelude args ds h).1 ?_
  generalize (args.layouts ++ args.includes) = fs at h hn
  revert hn
  have key : ∀ {n k : Nat} {fs ds}, Loads env n k fs ds →
      fs.Pairwise (fun f g => ¬ (FileNamed env.parse f ∧ FileNamed env.parse g)) → NoClash (ds.map fun d => d.2.1) := ?_
  · exact key h
  clear h
  intro n k fs ds h
  induction h with
  | nil => intro _; simp [NoClash]
  | @cons n k j fs d ds hd hrest ih =>
    intro hn
    obtain ⟨hn1, hn2⟩ := List.pairwise_cons.1 hn
    have hih := ih hn2
    refine List.pairwise_cons.2 ⟨fun m hm r hr hr' => ?_, hih⟩
    obtain ⟨d', hd', rfl⟩ := List.mem_map.1 hm
    obtain ⟨-, hkeys⟩ := loadDocument_unnamed hd
    have h2 := loads_keys hrest d' hd' r hr'
    rcases hkeys r hr with ⟨l, hl, hnl, i, hi⟩ | ⟨m, h3, h4, h5⟩
    · rcases h2 with ⟨⟨f, hf, hf'⟩, -⟩ | ⟨m, -, hm⟩
      · exact hn1 f hf ⟨⟨l, hl, hnl⟩, hf'⟩
      · exact hc.notIri _ _ (hm ▸ hi)
    · rcases h2 with ⟨-, i, hi⟩ | ⟨m', hm', h6⟩
      · exact hc.notIri _ _ (h5 ▸ hi)
      · have := hc.inj _ _ (h5.symm.trans h6)
        omega

/-- **C58**, unnamed layouts, for files that may all have explicit identifiers besides. Only explicit identifiers are counted:
if no IRI is defined by two of the files, there is no redefinition, however many layouts without identifier there are. -/
theorem C58_explicit (env : LoadEnv R) (hc : env.ctx.FreshLaws) (prelude : Registry R) (args : CliArgs) (ds : List (FileDefs R))
    (h : Loads env 0 0 (args.layouts ++ args.includes) ds)
    (hn : ds.Pairwise fun d e => ∀ i, env.ctx.iri i ∈ d.2.1.keys → env.ctx.iri i ∉ e.2.1.keys) :
    ∃ p, prepare env prelude args = .ok p := by
  refine (C58_redefinition env prelude args ds h).1 ?_
  generalize (args.layouts ++ args.includes) = fs at h
  revert hn
  have key : ∀ {n k : Nat} {fs ds}, Loads env n k fs ds →
      ds.Pairwise (fun d e => ∀ i, env.ctx.iri i ∈ d.2.1.keys → env.ctx.iri i ∉ e.2.1.keys) →
      NoClash (ds.map fun d => d.2.1) := ?_
  · exact key h
  clear h
  intro n k fs ds h
  induction h with
  | nil => intro _; simp [NoClash]
  | @cons n k j fs d ds hd hrest ih =>
    intro hn
    obtain ⟨hn1, hn2⟩ := List.pairwise_cons.1 hn
    refine List.pairwise_cons.2 ⟨fun m hm r hr hr' => ?_, ih hn2⟩
    obtain ⟨d', hd', rfl⟩ := List.mem_map.1 hm
    obtain ⟨-, hkeys⟩ := loadDocument_unnamed hd
    have h2 := loads_keys hrest d' hd' r hr'
    rcases hkeys r hr with ⟨-, -, -, i, rfl⟩ | ⟨m, h3, h4, h5⟩
    · exact hn1 d' hd' i hr hr'
    · rcases h2 with ⟨-, i, hi⟩ | ⟨m', hm', h6⟩
      · exact hc.notIri _ _ (h5 ▸ hi)
      · have := hc.inj _ _ (h5.symm.trans h6)
        omega

/-- A named file among unnamed ones. -/
example : CliExample.loaded ⟨[CliExample.anything, CliExample.point], [CliExample.anything], false⟩ (fun _ => true) = true := by
  decide +kernel

/-! ## C59: locality -/

/-- **C59**. Hydration depends only on the layouts that can be reached from the requested one. -/
theorem C59_hydrate {R : Type _} [DecidableEq R] (c : HyCtx R) (reg : Registry R) (n : Nat) (g : Option R) (ref : R) (ins : List R)
    (h : ∀ r, c.reg.Reaches ref r → reg r = c.reg r) :
    Hydrate.hydrate { c with reg := reg } n g ref ins = Hydrate.hydrate c n g ref ins :=
  (Hydrate.hydrate_local c reg n g ref ins h).symm

/-- **C59**. Dehydration depends only on the layouts that can be reached from the requested one. -/
theorem C59_dehydrate (c : DeCtx) (reg : Registry Term) (n : Nat) (v : Value) (ref : Term) (o : Dehydrate.DeOptions)
    (h : ∀ r, c.reg.Reaches ref r → reg r = c.reg r) :
    Dehydrate.dehydrate { c with reg := reg } n v ref o = Dehydrate.dehydrate c n v ref o :=
  (Dehydrate.dehydrate_local c reg n v ref o h).symm

/-- **C59**. Adding a registry after one that is complete, in which each mentioned layout is defined, changes nothing. -/
theorem C59_with {R : Type _} [DecidableEq R] (c : HyCtx R) (other : Registry R) (n : Nat) (g : Option R) (ref : R) (ins : List R)
    (hd : (c.reg ref).isSome = true) (h : ∀ r l r', c.reg r = some l → l.Mentions r' → (c.reg r').isSome = true) :
    Hydrate.hydrate { c with reg := Registry.including c.reg other } n g ref ins = Hydrate.hydrate c n g ref ins := by
  have key : ∀ r r', c.reg.Reaches r r' → (c.reg r).isSome = true → (c.reg r').isSome = true := by
    intro r r' hr
    induction hr with
    | refl r => exact id
    | step hl hm _ ih => exact fun _ => ih (h _ _ _ hl hm)
  refine C59_hydrate c _ n g ref ins fun r hr => ?_
  have := key ref r hr hd
  unfold Registry.including Registry.union
  cases hx : c.reg r with
  | none =>
    rw [hx] at this
    cases this
  | some l => rfl

/-- **C59**. The same for dehydration. -/
theorem C59_with_dehydrate (c : DeCtx) (other : Registry Term) (n : Nat) (v : Value) (ref : Term) (o : Dehydrate.DeOptions)
    (hd : (c.reg ref).isSome = true) (h : ∀ r l r', c.reg r = some l → l.Mentions r' → (c.reg r').isSome = true) :
    Dehydrate.dehydrate { c with reg := Registry.including c.reg other } n v ref o = Dehydrate.dehydrate c n v ref o := by
  have key : ∀ r r', c.reg.Reaches r r' → (c.reg r).isSome = true → (c.reg r').isSome = true := by
    intro r r' hr
    induction hr with
    | refl r => exact id
    | step hl hm _ ih => exact fun _ => ih (h _ _ _ hl hm)
  refine C59_dehydrate c _ n v ref o fun r hr => ?_
  have := key ref r hr hd
  unfold Registry.including Registry.union
  cases hx : c.reg r with
  | none =>
    rw [hx] at this
    cases this
  | some l => rfl

/-- The registry of the example is complete: no other registry changes the tree of the person. -/
example (other : Registry Nat) : Hydrate.hydrate { Example.ctx with reg := Registry.including Example.reg other } 5 none 0 [100] =
    .ok Example.personTree := by
  refine (C59_with Example.ctx other 5 none 0 [100] rfl ?_).trans Example.hydrate_person
  intro r l r' hl hm
  have hl : Example.reg r = some l := hl
  show (Example.reg r').isSome = true
  rw [← mem_visitDependencies] at hm
  unfold Example.reg at hl
  split at hl <;> simp only [Option.some.injEq, reduceCtorEq] at hl <;> subst hl <;>
    simp [Layout.visitDependencies, Example.person, Example.text, Example.tags, Example.rdfList, Example.either] at hm
  all_goals rcases hm with rfl | rfl <;> rfl

/-! ## C60: the prelude -/

/-- **C60**. The prelude can always be built, and it defines the expected layouts: a unit, the booleans, the numbers of eight
datatypes, the strings, the identifiers, each as a description of its input alone. -/
theorem C60_prelude (c : BuildCtx R) (hi : ∀ i ∈ preludeIris, c.lib.isIri i = true) (hc : ∀ i j, c.iri i = c.iri j → i = j)
    (debug : Bool) (fuel : Nat) : ∃ m, buildPrelude c debug fuel = .ok m ∧ m.registry = preludeRegistry c.iri := by
  let names := ["unit", "boolean", "u8", "u16", "u32", "u64", "i8", "i16", "i32", "i64", "string", "id"].map preludeIri
  have hplain : List.Forall₂ (Plain c.lib) preludeDefs names := by
    refine .cons (.unit (hi _ ?_)) (.cons (.boolean (hi _ ?_)) (.cons (.number (hi _ ?_) (hi _ ?_)) (.cons (.number (hi _ ?_) (hi _ ?_))
      (.cons (.number (hi _ ?_) (hi _ ?_)) (.cons (.number (hi _ ?_) (hi _ ?_)) (.cons (.number (hi _ ?_) (hi _ ?_))
      (.cons (.number (hi _ ?_) (hi _ ?_)) (.cons (.number (hi _ ?_) (hi _ ?_)) (.cons (.number (hi _ ?_) (hi _ ?_))
      (.cons (.textString (hi _ ?_)) (.cons (.id (hi _ ?_)) .nil))))))))))) <;> decide +kernel
  have hnd : (names.map c.iri).Nodup := by
    refine List.Pairwise.map c.iri (fun a b hab h => hab (hc _ _ h)) (show names.Pairwise (· ≠ ·) from ?_)
    decide +kernel
  obtain ⟨b, hb, hm, hl⟩ := plain_buildDefs hplain ⟨[], 0⟩ hnd (fun _ _ => rfl)
  have hpre : ∀ l ∈ preludeDefs, ∀ e, preludeEntry c l = some e → ∃ a, e.layout.build debug fuel = .ok a := by
    intro l hl e he
    have : ∀ l, preludeEntry c l = some e → ∃ a, e.layout.build debug fuel = .ok a := by
      intro l he
      cases l <;> simp only [preludeEntry, Option.some.injEq, reduceCtorEq] at he <;> subst he <;> exact ⟨_, rfl⟩
    exact this l he
  obtain ⟨ls, hls, hlk⟩ := buildAll_lookup (debug := debug) (fuel := fuel) b.layouts fun x hx => by
    rcases hm x hx with h | ⟨l, h1, h2⟩
    · cases h
    · exact hpre l h1 _ h2
  refine ⟨ls, by simp [buildPrelude, hb, hls], ?_⟩
  funext r
  have hagree := find_agree (c := c) (debug := debug) (fuel := fuel) (as := preludeDefs.zip names) (bs := preludeTable c.iri)
    (by
      refine .cons ⟨rfl, _, rfl, rfl⟩ (.cons ⟨rfl, _, rfl, rfl⟩ (.cons ⟨rfl, _, rfl, rfl⟩ (.cons ⟨rfl, _, rfl, rfl⟩
        (.cons ⟨rfl, _, rfl, rfl⟩ (.cons ⟨rfl, _, rfl, rfl⟩ (.cons ⟨rfl, _, rfl, rfl⟩ (.cons ⟨rfl, _, rfl, rfl⟩
        (.cons ⟨rfl, _, rfl, rfl⟩ (.cons ⟨rfl, _, rfl, rfl⟩ (.cons ⟨rfl, _, rfl, rfl⟩ (.cons ⟨rfl, _, rfl, rfl⟩ .nil)))))))))))) r
  refine Option.ext fun l => ?_
  rw [show preludeRegistry c.iri r = some l ↔ _ from (hagree l).symm]
  simp only [LayoutMap.registry, Option.map_eq_some_iff]
  constructor
  · rintro ⟨⟨a, x⟩, h1, rfl⟩
    obtain ⟨e, h2, h3, -⟩ := (hlk r a x).1 h1
    rw [hl] at h2
    exact ⟨e, by simpa using h2, h3⟩
  · rintro ⟨e, h1, h2⟩
    exact ⟨(l, e.extra), (hlk r l e.extra).2 ⟨e, by rw [hl, h1]; rfl, h2, rfl⟩, rfl⟩

example : ∃ m, buildPrelude SyExample.ctx false 0 = .ok m ∧ m.registry = preludeRegistry Term.iri :=
  C60_prelude SyExample.ctx (by decide +kernel) (fun i j h => by simpa [SyExample.ctx] using h) false 0

/-- The names of the prelude. -/
theorem preludeTable_names (iri : String → R) :
    (preludeTable iri).map Prod.fst = ["unit", "boolean", "u8", "u16", "u32", "u64", "i8", "i16", "i32", "i64", "string", "id"] := rfl

theorem preludeRegistry_isSome (iri : String → R) (r : R) : (preludeRegistry iri r).isSome = true ↔
    ∃ name ∈ ["unit", "boolean", "u8", "u16", "u32", "u64", "i8", "i16", "i32", "i64", "string", "id"], r = iri (preludeIri name) := by
  rw [← preludeTable_names iri, preludeRegistry]
  simp only [Option.isSome_map, List.find?_isSome, decide_eq_true_eq, List.mem_map]
  constructor
  · rintro ⟨e, he, h⟩
    exact ⟨e.1, ⟨e, he, rfl⟩, h.symm⟩
  · rintro ⟨_, ⟨e, he, rfl⟩, h⟩
    exact ⟨e, he, h.symm⟩

theorem prefix_inj (p a b : String) (h : p ++ a = p ++ b) : a = b := by simpa using h

theorem preludeRegistry_lookup {iri : String → R} (hi : ∀ i j, iri i = iri j → i = j) (name : String) :
    preludeRegistry iri (iri ("https://treeldr.org/prelude#" ++ name)) = (preludeTable iri).lookup name := by
  have h : ∀ t : List (String × Layout R),
      (t.find? fun e => decide (iri (preludeIri e.1) = iri (preludeIri name))).map Prod.snd = t.lookup name := by
    intro t
    induction t with
    | nil => rfl
    | cons e t ih =>
      obtain ⟨n, l⟩ := e
      rw [List.lookup_cons]
      by_cases he : n = name
      · subst he; simp
      · have : ¬ iri (preludeIri n) = iri (preludeIri name) := fun h => by
          exact he (prefix_inj _ n name (hi _ _ h))
        have hb : (name == n) = false := by simpa using fun h : name = n => he h.symm
        simp only [List.find?_cons, this, decide_false, hb]
        exact ih
  exact h _

/-- **C60**, names. The IRIs of the layouts of the prelude, and what they stand for. -/
theorem C60_names :
    (∀ r, (preludeRegistry Term.iri r).isSome = true ↔ ∃ name ∈ ["unit", "boolean", "u8", "u16", "u32", "u64", "i8", "i16", "i32", "i64",
      "string", "id"], r = .iri ("https://treeldr.org/prelude#" ++ name)) ∧
    preludeRegistry Term.iri (.iri "https://treeldr.org/prelude#unit") = some (.unit ⟨1, 0, [], .literal .unit⟩) ∧
    preludeRegistry Term.iri (.iri "https://treeldr.org/prelude#boolean") =
      some (.boolean (plainData (.iri "http://www.w3.org/2001/XMLSchema#boolean"))) ∧
    (∀ e ∈ [("u8", "unsignedByte"), ("u16", "unsignedShort"), ("u32", "unsignedInt"), ("u64", "unsignedLong"), ("i8", "byte"),
        ("i16", "short"), ("i32", "int"), ("i64", "long")],
      preludeRegistry Term.iri (.iri ("https://treeldr.org/prelude#" ++ e.1)) =
        some (.number (plainData (.iri ("http://www.w3.org/2001/XMLSchema#" ++ e.2))))) ∧
    preludeRegistry Term.iri (.iri "https://treeldr.org/prelude#string") =
      some (.textString { plainData (.iri "http://www.w3.org/2001/XMLSchema#string") with pattern := none }) ∧
    preludeRegistry Term.iri (.iri "https://treeldr.org/prelude#id") = some (.id ⟨1, 0, [], none, .var 0⟩) := by
  have hl := preludeRegistry_lookup (iri := Term.iri) fun i j h => by simpa using h
  refine ⟨preludeRegistry_isSome Term.iri, hl "unit", hl "boolean", ?_, hl "string", hl "id"⟩
  simp only [List.forall_mem_cons]
  exact ⟨hl "u8", hl "u16", hl "u32", hl "u64", hl "i8", hl "i16", hl "i32", hl "i64", fun _ h => nomatch h⟩

/-- **C60**, violated: the integer layouts do not check ranges. With `u8`, each number that has a decimal representation is
dehydrated, be it `300`, `-1` or `1/2`, as a literal of type `xsd:unsignedByte`. -/
theorem C60_range_violated_dehydrate (c : DeCtx) (hr : c.reg = preludeRegistry Term.iri)
    (hd : c.xsd.isDecimal (xsdIri "unsignedByte") = true) (q : Rat) (text : String) (hq : c.xsd.printDecimal q = some text)
    (n : Nat) (o : Dehydrate.DeOptions) (ho : o.order [] = []) :
    Dehydrate.dehydrate c (n + 1) (.literal (.number q)) (.iri (preludeIri "u8")) o =
      .ok ([], [.literal ⟨text, .any (xsdIri "unsignedByte")⟩]) := by
  have hreg : c.reg (.iri (preludeIri "u8")) = some (.number (plainData (.iri (xsdIri "unsignedByte")))) := by
    rw [hr]; decide +kernel
  have hlit : Dehydrate.numberLit c q [xsdIri "unsignedByte"] = .ok ⟨text, .any (xsdIri "unsignedByte")⟩ := by
    simp [Dehydrate.numberLit, hd, hq]
  have hw : Dehydrate.dehydrateWith c (n + 1) (.literal (.number q)) none (.iri (preludeIri "u8")) [.input 0] ⟨[], [], 0⟩ =
      (.ok (), ⟨[], [(.input 0, .literal ⟨text, .any (xsdIri "unsignedByte")⟩)], 0⟩) := by
    simp only [Dehydrate.dehydrateWith, hreg]
    rw [if_neg (by decide)]
    show Dehydrate.data [.input 0] _ _ _ = _
    simp only [Dehydrate.data, plainData]
    show DeM.bind (DeM.read fun _ => Dehydrate.numberLit c q [xsdIri "unsignedByte"]) _ _ = _
    rw [hlit]
    rfl
  simp only [Dehydrate.dehydrate, hreg, Layout.inputCount, plainData, Option.getD_some, List.range_succ, List.range_zero,
    List.nil_append, List.map_cons, List.map_nil, hw, ho]
  rw [if_neg (by simp [Dehydrate.ambiguous])]
  rfl

/-- `300` as an unsigned byte. -/
example : Dehydrate.dehydrate ⟨preludeRegistry Term.iri, fun _ => false,
      { Example.xsd with isDecimal := fun i => i = xsdIri "unsignedByte", printDecimal := fun q => if q = 300 then some "300" else none }⟩
      1 (.literal (.number 300)) (.iri (preludeIri "u8")) ⟨none, fun _ => .blank "i", fun _ => .blank "g", id⟩ =
    .ok ([], [.literal ⟨"300", .any (xsdIri "unsignedByte")⟩]) :=
  C60_range_violated_dehydrate _ rfl (by simp) 300 "300" (by simp) 0 _ rfl

/-- **C60**, violated: the same for hydration. -/
theorem C60_range_violated_hydrate (xsd : Xsd) (le : TypedValue Term → TypedValue Term → Bool) (ds : List (Quad Term))
    (hds : ds.Nodup) (hd : xsd.isDecimal (xsdIri "unsignedByte") = true) (q : Rat) (text : String) (hq : xsd.parseDecimal text = some q) (n : Nat) :
    Hydrate.hydrate (HyCtx.ofTerms (preludeRegistry Term.iri) xsd le ds) (n + 1) none (.iri (preludeIri "u8"))
        [.literal ⟨text, .any (xsdIri "unsignedByte")⟩] =
      .ok (.literal (.number q (.iri (preludeIri "u8")))) := by
  have hreg : preludeRegistry Term.iri (.iri (preludeIri "u8")) = some (.number (plainData (.iri (xsdIri "unsignedByte")))) := by
    decide +kernel
  rw [RoundTrip.hydrate_succ (l := .number (plainData (.iri (xsdIri "unsignedByte")))) hreg (by rintro k ⟨⟩; rfl)]
  simp only [Hydrate.layout]
  rw [RoundTrip.data_back _ hds (l := plainData (.iri (xsdIri "unsignedByte"))) ⟨rfl, rfl, rfl⟩ (.iri (preludeIri "u8")) (.literal ⟨text, .any (xsdIri "unsignedByte")⟩) (i := xsdIri "unsignedByte")
    (text := text) (a := q) rfl rfl (by simp [Hydrate.numberValue, HyCtx.ofTerms, hd, hq, Out.ofOption])]
  rfl

end Props

end Verif
