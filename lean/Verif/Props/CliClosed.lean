import Verif.Props.CliConform
import Verif.Props.Kept

/-!
# Properties C22 and C23 from the layout files to the commands, and C91

`SLayout.OneInput`: if the layout definition is that of a literal, it declares one input.
-/

set_option linter.unusedSectionVars false
set_option linter.unusedSimpArgs false

namespace Verif

/-- The definition of a literal layout declares one input (this is the default). -/
def SLayout.OneInput : SLayout → Prop
  | .unit h _ => h.input.asSlice.length = 1
  | .boolean h _ _ => h.input.asSlice.length = 1
  | .number h _ _ => h.input.asSlice.length = 1
  | .byteString h _ _ => h.input.asSlice.length = 1
  | .textString h _ _ _ => h.input.asSlice.length = 1
  | .id h _ _ => h.input.asSlice.length = 1
  | _ => True

/-- All the definitions of literal layouts in the files given to the tool declare one input. -/
def CliArgs.OneInput (args : CliArgs) (env : LoadEnv Term) : Prop :=
  ∀ j, .json j ∈ args.layouts ++ args.includes → ∀ l, parseLayout env.parse j = .ok l →
    ∀ l' env', SubDef env.ctx.lib LexEnv.empty l env' l' → l'.OneInput

namespace Props

open Dehydrate

section

variable {R : Type} [DecidableEq R]

theorem oneInput_means {c : BuildCtx R} {reg : R → Option (AbsLayout R)} {l : SLayout} {env : LexEnv} {a : AbsLayout R}
    (h : l.Means c reg env a) (h1 : l.OneInput) : OneInput a := by
  cases l <;> simp only [SLayout.Means] at h
  case unit => obtain ⟨l, env', rfl, hh, -⟩ := h; exact hh.input.trans h1
  case boolean => obtain ⟨l, env', rfl, hh, -⟩ := h; exact hh.input.trans h1
  case number => obtain ⟨l, env', rfl, hh, -⟩ := h; exact hh.input.trans h1
  case byteString => obtain ⟨l, env', rfl, hh, -⟩ := h; exact hh.input.trans h1
  case textString => obtain ⟨l, env', rfl, hh, -⟩ := h; exact hh.input.trans h1
  case id => obtain ⟨_, _, _, _, env', rfl, hh, -⟩ := h; exact hh.input.trans h1
  case product => obtain ⟨l, env', rfl, -⟩ := h; trivial
  case sum => obtain ⟨l, env', rfl, -⟩ := h; trivial
  case ordered => obtain ⟨l, env', rfl, -⟩ := h; trivial
  case unordered => obtain ⟨l, env', rfl, -⟩ := h; trivial
  case sized => obtain ⟨l, env', rfl, -⟩ := h; trivial
  case bool b => cases b <;> subst h <;> trivial

/-- The layouts of the prelude are closed. -/
theorem prelude_closed (iri : String → R) : (preludeRegistry iri).Closed := by
  intro ref l h
  obtain ⟨e, he, rfl⟩ := Option.map_eq_some_iff.1 h
  have he := List.mem_of_find?_eq_some he
  simp only [preludeTable, List.mem_cons, List.not_mem_nil, or_false] at he
  rcases he with rfl | rfl | rfl | rfl | rfl | rfl | rfl | rfl | rfl | rfl | rfl | rfl <;>
    simp [Layout.Closed, plainData, PatsBelow, patsVars, Pattern.Below, Pattern.vars]

end

/-- **C22** (the tool). Whatever the layout files are, all the layouts given to a command are closed, if literal layouts
are defined with one input. -/
theorem C22_loaded {env : LoadEnv Term} {args : CliArgs} {reg : Registry Term} {d : DefaultLayout Term}
    (hp : prepare env (preludeRegistry Term.iri) args = .ok (reg, d)) (h1 : args.OneInput env) : reg.Closed := by
  intro ref a ha
  obtain ⟨ds, hl, h2, h3⟩ := C36_cli _ _ _ _ _ hp
  by_cases hr : ∀ d ∈ ds, ref ∉ d.2.1.keys
  · rw [h3 ref hr] at ha
    split at ha
    · cases ha
    · exact prelude_closed _ ref a ha
  · simp only [not_forall, not_not] at hr
    obtain ⟨d, hd, hk⟩ := hr
    obtain ⟨x, hx⟩ := Option.isSome_iff_exists.1 (mem_keys_iff.1 hk)
    obtain ⟨j, n, k, hj, hload⟩ := loads_file hl d hd
    obtain ⟨l, b, hparse, hbuild, hall, -⟩ := loadDocument_ok hload
    have := h2 d hd ref x.1 x.2 (mem_of_lookup' hx)
    rw [ha] at this
    injection this with this
    obtain ⟨e, he, hb⟩ := lookup_buildAll _ _ hall ref x hx
    rw [← this] at hb
    obtain ⟨l', env', hs, hn, hm⟩ := (new_layouts env.ctx l _ b _ hbuild ref e he).resolve_left (by simp)
    exact C22_runtime _ _ _ _ hb (hm.1.closed hn) (oneInput_means hm.1 (h1 j hj l hparse l' env' hs))

theorem bind_err {ε α β : Type} {x : Out ε α} {f : α → Out ε β} {e : ε} (h : x.bind f = .err e) :
    x = .err e ∨ ∃ a, x = .ok a ∧ f a = .err e := by
  cases x with
  | ok a => exact .inr ⟨a, rfl, h⟩
  | err e' => exact .inl (by simpa [Out.bind] using h)
  | panic => exact nomatch h
  | fuel => exact nomatch h

theorem mapErr_err {ε ε' α : Type} {x : Out ε α} {f : ε → ε'} {e : ε'} (h : x.mapErr f = .err e) :
    ∃ e', x = .err e' ∧ f e' = e := by
  cases x with
  | ok a => exact nomatch h
  | err e' => exact ⟨e', rfl, by simpa [Out.mapErr] using h⟩
  | panic => exact nomatch h
  | fuel => exact nomatch h

theorem ofTotal_err {ε α : Type} {x : Out Empty α} {e : ε} (h : (Out.ofTotal x : Out ε α) = .err e) : False := by
  cases x with
  | err e' => exact nomatch e'
  | ok a => exact nomatch h
  | panic => exact nomatch h
  | fuel => exact nomatch h

/-- Errors about the layout files. -/
def CliError.OfFiles : CliError → Prop
  | .io => True
  | .jsonSyntax _ => True
  | .layoutSyntax _ _ => True
  | .layoutBuild _ _ => True
  | _ => False

theorem loadLayout_err {R : Type} [DecidableEq R] {env : LoadEnv R} {st : CliState R} {f : SourceFile} {e : CliError}
    (h : loadLayout env st f = .err e) : CliError.OfFiles e := by
  cases f with
  | unreadable => cases h; trivial
  | notJson => cases h; trivial
  | json j =>
    rcases bind_err h with h | ⟨d, -, h⟩
    · rcases bind_err h with h | ⟨l, -, h⟩
      · obtain ⟨e', -, rfl⟩ := mapErr_err h
        trivial
      · rcases hb : l.buildWithContext env.ctx ⟨[], st.next⟩ with ⟨o, b⟩
        rw [hb] at h
        cases o with
        | ok r =>
          rcases bind_err h with h | ⟨_, -, h⟩
          · exact (ofTotal_err h).elim
          · exact nomatch h
        | err e' => cases h; trivial
        | panic => exact nomatch h
        | fuel => exact nomatch h
    · rcases bind_err h with h | ⟨_, -, h⟩
      · obtain ⟨e', -, rfl⟩ := mapErr_err h
        trivial
      · exact nomatch h

theorem loadFiles_err {R : Type} [DecidableEq R] {env : LoadEnv R} {args : CliArgs} {e : CliError}
    (h : loadFiles env args = .err e) : CliError.OfFiles e := by
  have h1 : ∀ (fs : List SourceFile) (st : CliState R) d e, loadLayouts env fs st d = .err e → CliError.OfFiles e := by
    intro fs
    induction fs with
    | nil => intro st d e h; exact nomatch h
    | cons f fs ih =>
      intro st d e h
      rcases bind_err h with h | ⟨r, -, h⟩
      · exact loadLayout_err h
      · exact ih _ _ _ h
  have h2 : ∀ (fs : List SourceFile) (st : CliState R) e, loadIncludes env fs st = .err e → CliError.OfFiles e := by
    intro fs
    induction fs with
    | nil => intro st e h; exact nomatch h
    | cons f fs ih =>
      intro st e h
      rcases bind_err h with h | ⟨r, -, h⟩
      · exact loadLayout_err h
      · exact ih _ _ h
  rcases bind_err h with h | ⟨r, -, h⟩
  · exact h1 _ _ _ _ h
  · rcases bind_err h with h | ⟨st, -, h⟩
    · exact h2 _ _ _ h
    · exact nomatch h

theorem get_err {R : Type} {d : DefaultLayout R} {layout : Option R} {e : CliError} (h : d.get layout = .err e) :
    e = .noDefaultLayout ∨ e = .ambiguousDefaultLayout := by
  cases layout with
  | some r => exact nomatch h
  | none => cases d with
    | none => cases h; exact .inl rfl
    | some r => exact nomatch h
    | ambiguous => cases h; exact .inr rfl

theorem load_err {F : Type} {ofF64 : F → Option Rat} {i : TreeFormat} {input : Input F} {e : CliError}
    (h : i.load ofF64 input = .err e) : e = .loadTree := by
  cases i with
  | json =>
    simp only [TreeFormat.load] at h
    split at h
    · exact (ofTotal_err h).elim
    · cases h; rfl
  | cbor =>
    simp only [TreeFormat.load] at h
    split at h
    · exact nomatch h
    · cases h; rfl

theorem rdfLoad_err {F : Type} {i : RdfFormat} {input : Input F} {e : CliError} (h : i.load input = .err e) : e = .loadRdf := by
  cases i with
  | nQuads =>
    simp only [RdfFormat.load] at h
    split at h
    · exact nomatch h
    · cases h; rfl

variable {F : Type}

theorem loadFiles_of_prepare (env : FormatEnv F) (args : CliArgs) (reg : Registry Term) (d : DefaultLayout Term)
    (h : prepare env.load env.prelude args = .ok (reg, d)) :
    ∃ layouts, loadFiles env.load args = .ok (layouts, d) ∧ reg = env.registry args layouts := by
  simp only [prepare, Out.bind_eq_ok, Out.ok.injEq, Prod.mk.injEq] at h
  obtain ⟨r, h1, st, h2, rfl, rfl⟩ := h
  exact ⟨st.layouts, by simp only [loadFiles, h1, h2, Out.bind_ok], rfl⟩

/-- **C23** (the tool). `tldr dehydrate` never reports an undeclared variable, if literal layouts are defined with one
input.

Missing: literal layouts defined with several inputs, for which it does (`Witness.C23_literal_inputs`). -/
theorem C23_tool_partial (env : FormatEnv F) (hpre : env.prelude = preludeRegistry Term.iri) (args : CliArgs) (h1 : args.OneInput env.load)
    (i : TreeFormat) (o : RdfFormat) (layout : Option Term) (input : Input F) (x : Nat) :
    runCli env args (some (.dehydrate i o layout)) input ≠ .err (.dehydrate (.undeclaredVariable x)) := by
  intro h
  rcases bind_err h with h | ⟨⟨layouts, d⟩, hl, h⟩
  · exact (loadFiles_err h).elim
  have hp := prepare_of_loadFiles env args layouts d hl
  rw [hpre] at hp
  rcases bind_err h with h | ⟨_, -, h⟩
  · rcases bind_err h with h | ⟨ref, -, h⟩
    · rcases get_err h with h | h <;> exact nomatch h
    · rcases bind_err h with h | ⟨v, -, h⟩
      · exact nomatch load_err h
      · rcases bind_err h with h | ⟨_, -, h⟩
        · obtain ⟨e, h, he⟩ := mapErr_err h
          injection he with he
          subst he
          exact C23_dehydrate_no_undeclared_variable ⟨_, env.isIri, env.xsd⟩ (C22_loaded hp h1) _ _ _ _ _ h
        · exact nomatch h
  · exact nomatch h

/-! ## C91 -/

/-- **C91.** Whatever the layout files and the dataset are, if `tldr hydrate` prints something, then the data means exactly one
tree, for the layout and the subjects, and it is what is printed. (Literal layouts are defined with one input.) -/
theorem C91_printed (env : FormatEnv F) (hpre : env.prelude = preludeRegistry Term.iri) (hle : TotalOrder env.le)
    (hcol : KeyBased env.collect) (args : CliArgs) (h1 : args.OneInput env.load) (i : RdfFormat) (o : TreeFormat)
    (layout : Option Term) (subjects : List Term) (input : Input F) (p : Option (Printed F))
    (h : runCli env args (some (.hydrate i o layout subjects)) input = .ok p) :
    ∃ reg d ref ds v, prepare env.load env.prelude args = .ok (reg, d) ∧ d.get layout = .ok ref ∧ i.load input = .ok ds ∧
      (∀ m, env.depth ≤ m → ∀ w, Meaning (HyCtx.ofTerms reg env.xsd env.le ds) m none ref subjects w ↔ w = v) ∧
      (o = .json → ∃ j, p = some (.json j) ∧ j.toValue = .ok v.untype) ∧
      (o = .cbor → ∃ c c', p = some (.cbor c) ∧ v.toCbor env.toF64 env.collect = .ok c' ∧ c'.AddTags c) := by
  simp only [runCli, Out.bind_eq_ok, Out.ok.injEq, Command.run] at h
  obtain ⟨⟨layouts, d⟩, hl, p', ⟨ref, hd, ds, hds, v, hv, hp'⟩, rfl⟩ := h
  have hp := prepare_of_loadFiles env args layouts d hl
  have hwf := cli_constants (hpre ▸ hp)
  have hcl := C22_loaded (hpre ▸ hp) h1
  rw [Out.mapErr_eq_ok] at hv
  have hw := hydrate_wf _ hwf _ _ _ _ _ hv
  have hnd : ds.Nodup := by
    cases i
    simp only [RdfFormat.load] at hds
    split at hds
    · injection hds with hds
      rw [← hds]
      exact List.nodup_dedup _
    · exact nomatch hds
  refine ⟨_, d, ref, ds, v, hp, hd, hds,
    (C04_hydrate_meaning (HyCtx.ofTerms _ env.xsd env.le ds) hcl hnd hle env.depth none ref subjects).1 v hv, ?_, ?_⟩
  · rintro rfl
    simp only [TreeFormat.writeTyped, Out.bind_eq_ok, Out.ok.injEq, Out.mapErr_eq_ok] at hp'
    obtain ⟨j, hj, rfl⟩ := hp'
    exact ⟨j, rfl, C35_roundtrip _ hw j hj⟩
  · rintro rfl
    simp only [TreeFormat.writeTyped, Out.bind_eq_ok, Out.ok.injEq, Out.mapErr_eq_ok] at hp'
    obtain ⟨c, hc, rfl⟩ := hp'
    obtain ⟨c', h1, h2⟩ := C49_content env.toF64 env.collect _ hcol v c hc
    exact ⟨c, c', rfl, h1, h2⟩

/-- **C91** (errors). If `tldr hydrate` reports an error of hydration, then the data means no tree. -/
theorem C91_no_meaning (env : FormatEnv F) (hpre : env.prelude = preludeRegistry Term.iri) (hle : TotalOrder env.le)
    (args : CliArgs) (h1 : args.OneInput env.load) (i : RdfFormat) (o : TreeFormat) (layout : Option Term) (subjects : List Term)
    (input : Input F) (e : HyError Term) (h : runCli env args (some (.hydrate i o layout subjects)) input = .err (.hydrate e)) :
    ∃ reg d ref ds, prepare env.load env.prelude args = .ok (reg, d) ∧ d.get layout = .ok ref ∧ i.load input = .ok ds ∧
      ∀ m, env.depth ≤ m → ∀ w, ¬ Meaning (HyCtx.ofTerms reg env.xsd env.le ds) m none ref subjects w := by
  rcases bind_err h with h | ⟨⟨layouts, d⟩, hl, h⟩
  · exact (loadFiles_err h).elim
  have hp := prepare_of_loadFiles env args layouts d hl
  rcases bind_err h with h | ⟨_, -, h⟩
  · rcases bind_err h with h | ⟨ref, hd, h⟩
    · rcases get_err h with h | h <;> exact nomatch h
    · rcases bind_err h with h | ⟨ds, hds, h⟩
      · exact nomatch rdfLoad_err h
      · rcases bind_err h with h | ⟨v, -, h⟩
        · obtain ⟨e', h, he⟩ := mapErr_err h
          have hnd : ds.Nodup := by
            cases i
            simp only [RdfFormat.load] at hds
            split at hds
            · injection hds with hds
              rw [← hds]
              exact List.nodup_dedup _
            · exact nomatch hds
          exact ⟨_, d, ref, ds, hp, hd, hds, (C04_hydrate_meaning (HyCtx.ofTerms _ env.xsd env.le ds) (C22_loaded (hpre ▸ hp) h1)
            hnd hle env.depth none ref subjects).2 e' h⟩
        · cases o with
          | json =>
            rcases bind_err h with h | ⟨_, -, h⟩
            · obtain ⟨_, -, he⟩ := mapErr_err h
              exact nomatch he
            · exact nomatch h
          | cbor =>
            rcases bind_err h with h | ⟨_, -, h⟩
            · obtain ⟨_, -, he⟩ := mapErr_err h
              exact nomatch he
            · exact nomatch h
  · exact nomatch h

/-- **C91** (success). If the data means a tree that JSON can express, `tldr hydrate` prints it. Literal layouts are defined
with one input; the variants of sums introduce no variables and are told apart by their patterns. -/
theorem C91_meaning_printed (env : FormatEnv F) (hpre : env.prelude = preludeRegistry Term.iri) (hle : TotalOrder env.le)
    (args : CliArgs) (h1 : args.OneInput env.load) (reg : Registry Term) (d : DefaultLayout Term) (layout : Option Term)
    (ref : Term) (subjects : List Term) (input : Input F) (quads : List (Quad Term))
    (hp : prepare env.load env.prelude args = .ok (reg, d)) (hd : d.get layout = .ok ref) (hq : input.nQuads = some quads)
    (hno : reg.NoVariantIntro) (hap : (HyCtx.ofTerms reg env.xsd env.le quads.dedup).ToldApart) (m : Nat) (v : TypedValue Term)
    (hm : Meaning (HyCtx.ofTerms reg env.xsd env.le quads.dedup) m none ref subjects v) (j : Json) (hj : v.untype.toJson = .ok j) :
    ∃ N, ∀ n, N ≤ n → runCli { env with depth := n } args (some (.hydrate .nQuads .json layout subjects)) input =
      .ok (some (.json j)) := by
  obtain ⟨N, hN⟩ := C04_meaning_returns (HyCtx.ofTerms reg env.xsd env.le quads.dedup) (C22_loaded (hpre ▸ hp) h1) hno
    (List.nodup_dedup _) hle (by
      intro r
      unfold HyCtx.ofTerms
      cases r <;> simp) hap m none ref subjects v hm
  refine ⟨N, fun n hn => ?_⟩
  obtain ⟨layouts, hl, rfl⟩ := loadFiles_of_prepare env args reg d hp
  have h2 : loadFiles env.load args = .ok (layouts, d) := hl
  simp only [runCli, h2, Out.bind_ok, Command.run, hd, RdfFormat.load, hq, TreeFormat.writeTyped]
  have h3 : Hydrate.hydrate (HyCtx.ofTerms (({ env with depth := n } : FormatEnv F).registry args layouts) env.xsd env.le quads.dedup)
      n none ref subjects = .ok v := hN n hn
  simp only [h3, Out.mapErr, Out.bind_ok, hj]

/-! ## Examples -/

namespace CwExample

open CoExample (ex)

/-- The tool of `CvExample`, with an order on typed values. -/
noncomputable def env : FormatEnv Rat := { CvExample.env with le := ReproduceExample.le }

theorem oneInput : CcExample.args.OneInput env.load := by
  intro j hj l hl l' env' hs
  have hj : SourceFile.json j = .json CcExample.personDoc := by simpa [CcExample.args] using hj
  cases hj
  cases hl.symm.trans CcExample.parse_person
  rcases CoExample.sub_cases hs with ⟨rfl, rfl⟩ | rfl | rfl | rfl
  · trivial
  · trivial
  · rfl
  · rfl

theorem prepared : prepare env.load env.prelude CcExample.args = .ok (CoExample.reg, .some (ex "Person")) := CcExample.prepared

theorem loaded : loadFiles env.load CcExample.args = .ok (CoExample.layouts, .some (ex "Person")) := CvExample.loaded

/-- Bob is hydrated. -/
theorem hydrated : ∃ v, Hydrate.hydrate (HyCtx.ofTerms (env.registry CcExample.args CoExample.layouts) env.xsd env.le
    CvExample.bobQuads.dedup) env.depth none (ex "Person") [ex "bob"] = .ok v ∧ v.untype = CoExample.bob := by
  show ∃ v, Hydrate.hydrate (HyCtx.ofTerms (CvExample.env.registry CcExample.args CoExample.layouts) _ _ _) _ _ _ _ = _ ∧ _
  rw [CvExample.registry_eq]
  have : (match Hydrate.hydrate (HyCtx.ofTerms CoExample.reg CcExample.xsd ReproduceExample.le CvExample.bobQuads.dedup) 8 none
      (ex "Person") [ex "bob"] with | .ok v => decide (v.untype = CoExample.bob) | _ => false) = true := by decide +kernel
  split at this
  next v h => exact ⟨v, h, by simpa using this⟩
  next => cases this

/-- `tldr -l person.json --no-prelude hydrate <…/bob>`. -/
theorem printed : ∃ j, runCli env CcExample.args (some (.hydrate .nQuads .json none [ex "bob"])) CvExample.input =
    .ok (some (.json j)) := by
  obtain ⟨v, hv, hb⟩ := hydrated
  obtain ⟨j, hj⟩ := CvExample.bob_json
  refine ⟨j, ?_⟩
  rw [← hb] at hj
  simp only [runCli, loaded, Out.bind_ok, Command.run, DefaultLayout.get, RdfFormat.load, CvExample.input, hv, Out.mapErr,
    TreeFormat.writeTyped, hj]

theorem noSum (ref : Term) (l : SumLayout Term) : CoExample.reg ref ≠ some (.sum l) := by
  intro h
  have : ∀ e ∈ CoExample.layouts, ∀ l, e.2.1 ≠ .sum l := by
    simp [CoExample.layouts]
  obtain ⟨x, hx, hl⟩ := Option.map_eq_some_iff.1 (show (CoExample.layouts.lookup ref).map (·.1) = some (.sum l) from h)
  exact this _ (mem_of_lookup' hx) l hl

/-- Nothing is known about Carol: they have no name. -/
theorem refused : runCli env CcExample.args (some (.hydrate .nQuads .json none [ex "carol"])) CvExample.input =
    .err (.hydrate (.missingData (.key (ex "Person") (.text "name")))) := by
  have h : Hydrate.hydrate (HyCtx.ofTerms (env.registry CcExample.args CoExample.layouts) env.xsd env.le
      CvExample.bobQuads.dedup) env.depth none (ex "Person") [ex "carol"] = .err (.missingData (.key (ex "Person") (.text "name"))) := by
    show Hydrate.hydrate (HyCtx.ofTerms (CvExample.env.registry CcExample.args CoExample.layouts) _ _ _) _ _ _ _ = _
    rw [CvExample.registry_eq]
    decide +kernel
  simp only [runCli, loaded, Out.bind_ok, Command.run, DefaultLayout.get, RdfFormat.load, CvExample.input, h, Out.mapErr,
    Out.bind]

end CwExample

example : CoExample.reg.Closed := C22_loaded CwExample.prepared CwExample.oneInput

example := C23_tool_partial CwExample.env rfl CcExample.args CwExample.oneInput

-- What is printed about Bob is what the data means.
example : ∃ j v, runCli CwExample.env CcExample.args (some (.hydrate .nQuads .json none [CoExample.ex "bob"])) CvExample.input =
    .ok (some (.json j)) ∧ j.toValue = .ok v.untype ∧ ∀ w, Meaning (HyCtx.ofTerms CoExample.reg CcExample.xsd ReproduceExample.le
      CvExample.bobQuads.dedup) 8 none (CoExample.ex "Person") [CoExample.ex "bob"] w ↔ w = v := by
  obtain ⟨j, hj⟩ := CwExample.printed
  obtain ⟨reg, d, ref, ds, v, h1, h2, h3, h4, h5, -⟩ := C91_printed CwExample.env rfl ReproduceExample.le_total (fun _ _ _ h => h) _
    CwExample.oneInput _ _ _ _ _ _ hj
  cases h1.symm.trans CwExample.prepared
  cases h2
  cases h3
  obtain ⟨j', h6, h7⟩ := h5 rfl
  cases h6
  exact ⟨_, v, hj, h7, h4 8 (le_refl _)⟩

-- Nothing is meant about Carol.
example : ∃ reg d ref ds, prepare CwExample.env.load CwExample.env.prelude CcExample.args = .ok (reg, d) ∧ d.get none = .ok ref ∧
    RdfFormat.nQuads.load CvExample.input = .ok ds ∧ ∀ m, 8 ≤ m → ∀ w,
      ¬ Meaning (HyCtx.ofTerms reg CwExample.env.xsd CwExample.env.le ds) m none ref [CoExample.ex "carol"] w :=
  C91_no_meaning CwExample.env rfl ReproduceExample.le_total _ CwExample.oneInput _ .json _ _ _ _ CwExample.refused

-- The meaning of the data about Bob is printed.
example : ∃ N j, ∀ n, N ≤ n → runCli { CwExample.env with depth := n } CcExample.args
    (some (.hydrate .nQuads .json none [CoExample.ex "bob"])) CvExample.input = .ok (some (.json j)) := by
  obtain ⟨v, hv, hb⟩ := CwExample.hydrated
  obtain ⟨j, hj⟩ := CvExample.bob_json
  have hr : CwExample.env.registry CcExample.args CoExample.layouts = CoExample.reg := CvExample.registry_eq
  rw [hr] at hv
  have hm := ((C04_hydrate_meaning (HyCtx.ofTerms CoExample.reg CcExample.xsd ReproduceExample.le CvExample.bobQuads.dedup)
    (C22_loaded CwExample.prepared CwExample.oneInput) (List.nodup_dedup _) ReproduceExample.le_total 8 none _ _).1 v hv 8
    (le_refl _) v).2 rfl
  obtain ⟨N, hN⟩ := C91_meaning_printed CwExample.env rfl ReproduceExample.le_total _ CwExample.oneInput _ _ none _ _
    CvExample.input CvExample.bobQuads CwExample.prepared rfl rfl (fun ref l hl => absurd hl (CwExample.noSum ref l))
    (fun ref l hl => absurd hl (CwExample.noSum ref l)) 8 v hm j (hb ▸ hj)
  exact ⟨N, j, hN⟩

namespace Witness

/-- **C23** fails for literal layouts with several inputs. The boolean layout of `C26_literal_inputs` is accepted and compiled, and
dehydration fails with an undeclared variable. -/
theorem C23_literal_inputs :
    let b := (twoInputs.buildWithContext SyExample.ctx SyExample.empty).2
    let l : DataLayout Term := ⟨2, 0, [], .var 1, .iri xsdBoolean⟩
    (twoInputs.buildWithContext SyExample.ctx SyExample.empty).1 = .ok (.iri "https://example.org/B") ∧
    b.layouts.lookup (.iri "https://example.org/B") = some ⟨.boolean l, []⟩ ∧
    (AbsLayout.boolean l).build true 0 = .ok (.boolean l) ∧
    (dehydrate ⟨fun r => if r = .iri "https://example.org/B" then some (.boolean l) else none, fun _ => true, Example.xsd⟩ 5
      (.literal (.boolean true)) (.iri "https://example.org/B") (.default id)) = .err (.undeclaredVariable 1) := by
  refine ⟨by decide +kernel, rfl, rfl, ?_⟩
  decide +kernel

end Witness

end Props

end Verif
