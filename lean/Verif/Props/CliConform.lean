import Verif.CliConform
import Verif.Props.CliFormats

/-!
# What the commands read and print conforms to the layout (C77)
-/

set_option linter.unusedSectionVars false
set_option linter.unusedSimpArgs false

namespace Verif.Props

variable {F : Type}

theorem prepare_of_loadFiles (env : FormatEnv F) (args : CliArgs) (layouts : LayoutMap Term) (d : DefaultLayout Term)
    (h : loadFiles env.load args = .ok (layouts, d)) :
    prepare env.load env.prelude args = .ok (env.registry args layouts, d) := by
  simp only [loadFiles, Out.bind_eq_ok, Out.ok.injEq, Prod.mk.injEq] at h
  obtain ⟨r, h1, st, h2, rfl, rfl⟩ := h
  simp only [prepare, h1, h2, Out.bind_ok, FormatEnv.registry]

/-- **C77**, hydration. Whatever the layout files and the dataset are: if `tldr hydrate` prints something, it stands for a tree that
conforms to the layout. In JSON, this tree is what is read back from the document; in CBOR the document is the encoding of the tree
with tags added. (Any text is an IRI for `Conforms` here: the IRIs of a dataset are valid by their types.) -/
theorem C77_hydrated_conforms (env : FormatEnv F) (hpre : env.prelude = preludeRegistry Term.iri) (hcol : KeyBased env.collect)
    (args : CliArgs) (i : RdfFormat) (o : TreeFormat) (layout : Option Term) (subjects : List Term) (input : Input F)
    (p : Option (Printed F)) (h : runCli env args (some (.hydrate i o layout subjects)) input = .ok p) :
    ∃ reg d ref v, prepare env.load env.prelude args = .ok (reg, d) ∧ d.get layout = .ok ref ∧
      Annotated reg (fun _ => true) ref v ∧ Conforms reg (fun _ => true) ref v.untype ∧
      (o = .json → ∃ j, p = some (.json j) ∧ j.toValue = .ok v.untype) ∧
      (o = .cbor → ∃ c c', p = some (.cbor c) ∧ v.toCbor env.toF64 env.collect = .ok c' ∧ c'.AddTags c) := by
  simp only [runCli, Out.bind_eq_ok, Out.ok.injEq, Command.run] at h
  obtain ⟨⟨layouts, d⟩, hl, p', ⟨ref, hd, ds, hds, v, hv, hp'⟩, rfl⟩ := h
  have hp := prepare_of_loadFiles env args layouts d hl
  have hwf := cli_constants (hpre ▸ hp)
  rw [Out.mapErr_eq_ok] at hv
  have ha := Hydrate.hydrate_annotated _ (fun _ => true) (fun _ _ _ => rfl) hwf.distinct _ _ _ _ _ hv
  have hw := hydrate_wf _ hwf _ _ _ _ _ hv
  refine ⟨_, d, ref, v, hp, hd, ha, ha.conforms, ?_, ?_⟩
  · rintro rfl
    simp only [TreeFormat.writeTyped, Out.bind_eq_ok, Out.ok.injEq, Out.mapErr_eq_ok] at hp'
    obtain ⟨j, hj, rfl⟩ := hp'
    exact ⟨j, rfl, C35_roundtrip _ hw j hj⟩
  · rintro rfl
    simp only [TreeFormat.writeTyped, Out.bind_eq_ok, Out.ok.injEq, Out.mapErr_eq_ok] at hp'
    obtain ⟨c, hc, rfl⟩ := hp'
    obtain ⟨c', h1, h2⟩ := C49_content env.toF64 env.collect _ hcol v c hc
    exact ⟨c, c', rfl, h1, h2⟩

/-- **C77**, dehydration. If `tldr dehydrate` prints something, the tree that was read conforms to the layout. -/
theorem C77_dehydrated_conforms (env : FormatEnv F) (hpre : env.prelude = preludeRegistry Term.iri) (args : CliArgs)
    (i : TreeFormat) (o : RdfFormat) (layout : Option Term) (input : Input F) (p : Option (Printed F))
    (h : runCli env args (some (.dehydrate i o layout)) input = .ok p) :
    ∃ reg d ref v, prepare env.load env.prelude args = .ok (reg, d) ∧ d.get layout = .ok ref ∧
      i.load env.ofF64 input = .ok v ∧ Conforms reg env.isIri ref v := by
  simp only [runCli, Out.bind_eq_ok, Out.ok.injEq, Command.run] at h
  obtain ⟨⟨layouts, d⟩, hl, p', ⟨ref, hd, v, hv, r, hr, hp'⟩, rfl⟩ := h
  have hp := prepare_of_loadFiles env args layouts d hl
  rw [Out.mapErr_eq_ok] at hr
  exact ⟨_, d, ref, v, hp, hd, hv,
    C10_dehydrate_conforms ⟨_, env.isIri, env.xsd⟩ (cli_constants (hpre ▸ hp)).distinct _ _ _ _ _ hr⟩

/-- **C77**, CBOR (partial). Once a tree is hydrated, encoding it in CBOR ends with a document or an error about a tag, provided no
number is zero: the layouts of all parts of the tree are found. -/
theorem C77_cbor_partial (env : FormatEnv F) (hpre : env.prelude = preludeRegistry Term.iri) (args : CliArgs)
    (layouts : LayoutMap Term) (d : DefaultLayout Term) (hl : loadFiles env.load args = .ok (layouts, d)) (layout : Option Term)
    (ref : Term) (hd : d.get layout = .ok ref) (subjects : List Term) (input : Input F) (ds : List (Quad Term))
    (hds : input.nQuads = some ds) (v : TypedValue Term)
    (hv : Hydrate.hydrate (HyCtx.ofTerms (env.registry args layouts) env.xsd env.le ds.dedup) env.depth none ref subjects = .ok v)
    (hn : v.untype.AllNumbers (· ≠ 0)) :
    (∃ c, runCli env args (some (.hydrate .nQuads .cbor layout subjects)) input = .ok (some (.cbor c))) ∨
    ∃ e, runCli env args (some (.hydrate .nQuads .cbor layout subjects)) input = .err (.cborTag e) := by
  have hwf := cli_constants (hpre ▸ prepare_of_loadFiles env args layouts d hl)
  have ha := Hydrate.hydrate_annotated _ (fun _ => true) (fun _ _ _ => rfl) hwf.distinct _ _ _ _ _ hv
  have := taggedCbor_ends (tagOf_ends env args layouts) env.toF64 env.collect v ref ha hn
  simp only [runCli, hl, Out.bind_ok, Command.run, hd, RdfFormat.load, hds, hv, Out.mapErr, TreeFormat.writeTyped]
  rcases this with ⟨c, hc⟩ | ⟨e, he⟩
  · exact .inl ⟨c, by rw [hc]; rfl⟩
  · exact .inr ⟨e, by rw [he]; rfl⟩

/-! ## The hypotheses can be met -/

namespace CvExample

open CoExample (ex)

/-- The tool of `CcExample`, with rational numbers for floating point numbers. -/
noncomputable def env : FormatEnv Rat where
  toCommandEnv := CcExample.env
  toF64 := id
  ofF64 := some
  collect := id

/-- `<…/bob> <…/name> "Bob" .` -/
def bobQuads : List (Quad Term) :=
  [⟨ex "bob", ex "name", .literal ⟨"Bob", .any "http://www.w3.org/2001/XMLSchema#string"⟩, none⟩]

def input : Input Rat := ⟨some bobQuads, none, none⟩

theorem loaded : loadFiles env.load CcExample.args = .ok (CoExample.layouts, .some (ex "Person")) := by
  have h : (loadDocument env.load 0 0 CcExample.personDoc) = .ok (ex "Person", CoExample.layouts, CoExample.built.next) := by
    have h1 : parseLayout env.load.parse CcExample.personDoc = .ok CoExample.person := CcExample.parse_person
    have h2 : CoExample.person.buildWithContext env.load.ctx ⟨[], 0⟩ = (.ok (ex "Person"), CoExample.built) := CoExample.person_ok
    have h3 : buildAll env.load.debug env.load.fuel CoExample.built.layouts = .ok CoExample.layouts := CoExample.layouts_ok
    simp only [loadDocument, h1, Out.mapErr, Out.bind, h2, h3, Out.ofTotal]
  have h' : insertLayouts env.load.ctx.le CoExample.layouts [] = .ok CoExample.layouts := by decide +kernel
  simp only [loadFiles, CcExample.args, loadLayouts, loadLayout, h, h', loadIncludes, Out.bind, Out.mapErr, DefaultLayout.set]

theorem registry_eq : env.registry CcExample.args CoExample.layouts = CoExample.reg := by
  simp only [FormatEnv.registry, CcExample.args, if_true]
  rw [C36_absent]
  rfl

/-- Bob is hydrated. -/
theorem hydrated : ∃ v, Hydrate.hydrate (HyCtx.ofTerms (env.registry CcExample.args CoExample.layouts) env.xsd env.le bobQuads.dedup) env.depth
    none (ex "Person") [ex "bob"] = .ok v ∧ v.untype = CoExample.bob := by
  rw [registry_eq]
  have : (match Hydrate.hydrate (HyCtx.ofTerms CoExample.reg CcExample.xsd (fun _ _ => true) bobQuads.dedup) 8 none (ex "Person")
      [ex "bob"] with | .ok v => decide (v.untype = CoExample.bob) | _ => false) = true := by decide +kernel
  split at this
  next v h => exact ⟨v, h, by simpa using this⟩
  next => cases this

theorem bob_json : ∃ j, CoExample.bob.toJson = .ok j := (C35_domain_partial _).2 (by
  refine .map _ ?_ ?_ <;> simp only [List.mem_cons, List.not_mem_nil, or_false, forall_eq_or_imp, forall_eq]
  · exact ⟨⟨_, rfl⟩, ⟨_, rfl⟩, ⟨_, rfl⟩⟩
  · exact ⟨.list _ (by simp), .textString _, .textString _⟩)

theorem bob_numbers : CoExample.bob.AllNumbers (· ≠ 0) := by
  refine .map _ ?_ ?_ <;> simp only [List.mem_cons, List.not_mem_nil, or_false, forall_eq_or_imp, forall_eq]
  · exact ⟨.textString _, .textString _, .textString _⟩
  · exact ⟨.list _ (by simp), .textString _, .textString _⟩

/-- `tldr -l person.json --no-prelude hydrate <…/bob>`. -/
theorem printed : ∃ j, runCli env CcExample.args (some (.hydrate .nQuads .json none [ex "bob"])) input = .ok (some (.json j)) := by
  obtain ⟨v, hv, hb⟩ := hydrated
  obtain ⟨j, hj⟩ := bob_json
  refine ⟨j, ?_⟩
  rw [← hb] at hj
  simp only [runCli, loaded, Out.bind_ok, Command.run, DefaultLayout.get, RdfFormat.load, input, hv, Out.mapErr,
    TreeFormat.writeTyped, hj]

end CvExample

example : ∃ j, runCli CvExample.env CcExample.args (some (.hydrate .nQuads .json none [CoExample.ex "bob"])) CvExample.input =
    .ok (some (.json j)) ∧ ∃ reg d ref v, prepare CvExample.env.load CvExample.env.prelude CcExample.args = .ok (reg, d) ∧
      d.get none = .ok ref ∧ Conforms reg (fun _ => true) ref v ∧ j.toValue = .ok v := by
  obtain ⟨j, hj⟩ := CvExample.printed
  obtain ⟨reg, d, ref, v, h1, h2, -, h3, h4, -⟩ := C77_hydrated_conforms CvExample.env rfl (fun _ _ _ h => h) _ _ _ _ _ _ _ hj
  obtain ⟨j', h5, h6⟩ := h4 rfl
  cases h5
  exact ⟨_, hj, reg, d, ref, _, h1, h2, h3, h6⟩

example : (∃ c, runCli CvExample.env CcExample.args (some (.hydrate .nQuads .cbor none [CoExample.ex "bob"])) CvExample.input =
      .ok (some (.cbor c))) ∨
    ∃ e, runCli CvExample.env CcExample.args (some (.hydrate .nQuads .cbor none [CoExample.ex "bob"])) CvExample.input =
      .err (.cborTag e) := by
  obtain ⟨v, hv, hb⟩ := CvExample.hydrated
  exact C77_cbor_partial CvExample.env rfl _ _ _ CvExample.loaded none _ rfl _ _ _ rfl v hv (hb ▸ CvExample.bob_numbers)

/-- `tldr convert -f json -t cbor` with a number: the tree is read back. -/
example (env : FormatEnv F) (args : CliArgs) (layouts : LayoutMap Term) (d : DefaultLayout Term) (input : Input F)
    (hi : input.json = some (.array [.number "12.5".toList, .string "a"])) :
    ∃ p, (Command.convertTree .json .cbor).run env args layouts d input = .ok p := by
  have h : TreeFormat.load env.ofF64 .json input = .ok (.list [.literal (.number (25 / 2)), .text "a"]) := by
    have : (Json.array [.number "12.5".toList, .string "a"]).toValue = .ok (.list [.literal (.number (25 / 2)), .text "a"]) := by
      decide +kernel
    simp only [TreeFormat.load, hi, this, Out.ofTotal]
  refine (C76_success env args layouts d .json input _ h).2.1.2 (.list _ ?_)
  simp only [List.mem_cons, List.not_mem_nil, or_false, forall_eq_or_imp, forall_eq]
  exact ⟨.number _ (by decide +kernel), .textString _⟩

end Verif.Props
