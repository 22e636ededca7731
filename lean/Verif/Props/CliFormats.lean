import Verif.CliFormatsLemmas
import Verif.Props.Cli
import Verif.Props.Data

/-!
# Properties of formats and conversions (C75, C76)
-/

set_option linter.unusedSectionVars false
set_option linter.unusedSimpArgs false

namespace Verif.Props

variable {F : Type}

/-! ## C75 -/

/-- **C75**, RDF formats. The command line parser accepts the listed names, which all denote N-Quads; it rejects the others, and
never panics. The name that is displayed is accepted. -/
theorem C75_rdf_formats (s : String) :
    (s ∈ ["application/n-quads", "n-quads", "nquads", "nq"] → RdfFormat.parse s = .ok .nQuads) ∧
    (s ∉ ["application/n-quads", "n-quads", "nquads", "nq"] → RdfFormat.parse s = .err (.invalidValue s)) ∧
    ∀ f : RdfFormat, RdfFormat.parse f.asStr = .ok f := by
  refine ⟨fun h => ?_, fun h => ?_, fun f => ?_⟩
  · have : RdfFormat.new s = some .nQuads := by
      simp only [List.mem_cons, List.not_mem_nil, or_false] at h
      rw [RdfFormat.new, if_pos]
      rcases h with h | h | h | h <;> simp [h]
    rw [RdfFormat.parse, parseFormatName, RdfFormat.possibleValues, if_pos h, this]
    rfl
  · rw [RdfFormat.parse, parseFormatName, RdfFormat.possibleValues, if_neg h]
  · cases f
    decide +kernel

/-- **C75**, tree formats. -/
theorem C75_tree_formats (s : String) :
    (TreeFormat.parse s = .ok .json ↔ s = "application/json" ∨ s = "json") ∧
    (TreeFormat.parse s = .ok .cbor ↔ s = "application/cbor" ∨ s = "cbor") ∧
    (TreeFormat.parse s = .err (.invalidValue s) ↔ s ∉ ["application/json", "json", "application/cbor", "cbor"]) ∧
    TreeFormat.parse s ≠ .panic ∧ ∀ f : TreeFormat, TreeFormat.parse f.asStr = .ok f := by
  have hf : ∀ f : TreeFormat, TreeFormat.parse f.asStr = .ok f := by
    intro f
    cases f <;> decide +kernel
  by_cases h : s ∈ ["application/json", "json", "application/cbor", "cbor"]
  · simp only [List.mem_cons, List.not_mem_nil, or_false] at h
    rcases h with rfl | rfl | rfl | rfl
    all_goals exact ⟨by decide +kernel, by decide +kernel, by decide +kernel, by decide +kernel, hf⟩
  · have hp : TreeFormat.parse s = .err (.invalidValue s) := by rw [TreeFormat.parse, parseFormatName, TreeFormat.possibleValues, if_neg h]
    simp only [List.mem_cons, List.not_mem_nil, or_false, not_or] at h
    rw [hp]
    refine ⟨by simp [h], by simp [h], by simp [h], by simp, hf⟩

/-- **C75**. The default values of the options are accepted. -/
theorem C75_defaults : RdfFormat.parse "n-quads" = .ok .nQuads ∧ TreeFormat.parse "json" = .ok .json := by decide +kernel

/-- **C75**, terms. A term given on the command line is the blank node or the IRI that is written, and other strings are
rejected. -/
theorem C75_terms (isBlank isIri : String → Bool) (s : String) (hd : ¬ (isBlank s = true ∧ isIri s = true)) :
    (∀ t, parseTerm isBlank isIri s = .ok t ↔ (t = .blank s ∧ isBlank s = true) ∨ (t = .iri s ∧ isIri s = true)) ∧
    (parseTerm isBlank isIri s = .err (.invalidValue s) ↔ isBlank s = false ∧ isIri s = false) := by
  unfold parseTerm
  cases hb : isBlank s <;> cases hi : isIri s
  · simp
  · simp only [Bool.false_eq_true, if_false, if_true, Out.ok.injEq, and_false, and_true, false_or, reduceCtorEq, iff_false]
    exact fun t => eq_comm
  · simp only [Bool.false_eq_true, if_true, Out.ok.injEq, and_false, and_true, or_false, reduceCtorEq, iff_false]
    exact fun t => eq_comm
  · exact absurd ⟨hb, hi⟩ hd

/-- Identifiers of blank nodes start with `_:`, and IRIs with a letter. -/
example : parseTerm (fun s => s.toList.take 2 = ['_', ':']) (fun s => (s.toList.headD ' ').isAlpha) "_:b0" = .ok (.blank "_:b0") ∧
    ∀ s : String, ¬ ((decide (s.toList.take 2 = ['_', ':'])) = true ∧ (s.toList.headD ' ').isAlpha = true) := by
  refine ⟨by decide +kernel, fun s => ?_⟩
  cases s.toList with
  | nil => simp
  | cons c l =>
    simp only [List.take_succ_cons, List.cons.injEq, decide_eq_true_eq, List.headD_cons, not_and]
    rintro ⟨rfl, -⟩
    decide

/-! ## C76 -/

/-- Reading what was printed: the syntaxes are those of the libraries, which read what they write. -/
def ReadBack : Printed F → Input F → Prop
  | .nQuads quads, input => input.nQuads = some quads
  | .json j, input => input.json = some j
  | .serde s, input => input.cbor = some s
  | .cbor _, _ => False

/-- **C76** (partial). A tree converted from a format to another is the tree that was read: reading what is printed gives the same
tree. What is missing: numbers printed in CBOR must be integers between `-2^63` and `2^64` (both excluded) or be represented
exactly as floating point numbers (see C50). -/
theorem C76_convert_tree_partial (env : FormatEnv F) (args : CliArgs) (layouts : LayoutMap Term) (d : DefaultLayout Term)
    (i o : TreeFormat) (input : Input F) (p : Printed F)
    (h : (Command.convertTree i o).run env args layouts d input = .ok p) :
    ∃ v, i.load env.ofF64 input = .ok v ∧
      ((o = .cbor → v.AllNumbers fun n =>
        (n.den = 1 ∧ -2 ^ 63 < n.num ∧ n.num < 2 ^ 64) ∨ env.ofF64 (env.toF64 n) = some n) →
      ∀ input', ReadBack p input' → o.load env.ofF64 input' = .ok v) := by
  simp only [Command.run, runConvertTree, Out.bind_eq_ok] at h
  obtain ⟨v, hv, hp⟩ := h
  refine ⟨v, hv, fun hn input' hr => ?_⟩
  have hwf := TreeFormat.load_wf hv
  cases o with
  | json =>
    simp only [TreeFormat.writeUntyped, Out.bind_eq_ok, Out.mapErr_eq_ok, Out.ok.injEq] at hp
    obtain ⟨j, hj, rfl⟩ := hp
    have hr' : input'.json = some j := hr
    simp only [TreeFormat.load, hr', C35_roundtrip v hwf j hj, Out.ofTotal]
  | cbor =>
    simp only [TreeFormat.writeUntyped, Out.bind_eq_ok, ofTotal_eq_ok, Out.ok.injEq] at hp
    obtain ⟨s, hs, rfl⟩ := hp
    have hr' : input'.cbor = some s := hr
    have h0 : v.AllNumbers (· ≠ 0) := by
      rcases serialize_total env.toF64 v with ⟨h, -⟩ | ⟨-, h⟩
      · exact h
      · rw [hs] at h; cases h
    obtain ⟨s', hs', hd⟩ := C50_serde_partial env.toF64 env.ofF64 v hwf (allNumbers_and v h0 (hn rfl))
    rw [hs] at hs'
    cases hs'
    simp only [TreeFormat.load, hr', Option.bind_some, hd]

/-- **C76**, success. A tree is printed in JSON exactly when it fits in JSON and its numbers have a finite decimal expansion and
are greater than `-1`; it is printed in CBOR exactly when no number in it is zero. Zero makes the tool panic. -/
theorem C76_success (env : FormatEnv F) (args : CliArgs) (layouts : LayoutMap Term) (d : DefaultLayout Term)
    (i : TreeFormat) (input : Input F) (v : Value) (hv : i.load env.ofF64 input = .ok v) :
    ((∃ p, (Command.convertTree i .json).run env args layouts d input = .ok p) ↔
      v.JsonCompatible fun n => FiniteDecimal n ∧ -1 < n) ∧
    ((∃ p, (Command.convertTree i .cbor).run env args layouts d input = .ok p) ↔ v.AllNumbers (· ≠ 0)) ∧
    ((Command.convertTree i .cbor).run env args layouts d input = .panic ↔ ¬ v.AllNumbers (· ≠ 0)) := by
  simp only [Command.run, runConvertTree, hv, Out.bind_ok, TreeFormat.writeUntyped]
  refine ⟨?_, ?_⟩
  · rw [← C35_domain_partial v]
    cases v.toJson <;> simp [Out.mapErr]
  · rcases serialize_total env.toF64 v with ⟨h, s, hs⟩ | ⟨h, hs⟩
    · simp [hs, Out.ofTotal, h]
    · simp [hs, Out.ofTotal, h]

/-- **C76**, datasets. A dataset converted is the same set of quads, each of them printed once. -/
theorem C76_convert_rdf (env : FormatEnv F) (args : CliArgs) (layouts : LayoutMap Term) (d : DefaultLayout Term)
    (i o : RdfFormat) (input : Input F) (quads : List (Quad Term)) (h : input.nQuads = some quads) :
    ∃ quads', (Command.convertRdf i o).run env args layouts d input = .ok (.nQuads quads') ∧ quads'.Nodup ∧
      ∀ q, q ∈ quads' ↔ q ∈ quads := by
  cases i
  cases o
  exact ⟨quads.dedup, by simp [Command.run, RdfFormat.load, RdfFormat.write, h], List.nodup_dedup _,
    fun q => List.mem_dedup⟩

/-- The commands with JSON are those of `Verif/Cli.lean`, to which C37 and C71 apply. -/
theorem run_hydrate_json (env : FormatEnv F) (args : CliArgs) (layout : Option Term) (subjects : List Term) (input : Input F) :
    runCli env args (some (.hydrate .nQuads .json layout subjects)) input =
      (hydrateCommand env.toCommandEnv args layout subjects (input.nQuads.map List.dedup)).bind fun j =>
        .ok (some (.json j)) := by
  simp only [runCli, loadFiles, hydrateCommand, prepare, Command.run, RdfFormat.load, TreeFormat.writeTyped,
    FormatEnv.registry]
  cases loadLayouts env.load args.layouts ({} : CliState Term) DefaultLayout.none with
  | ok r =>
    simp only [Out.bind_ok]
    cases loadIncludes env.load args.includes r.1 with
    | ok st =>
      simp only [Out.bind_ok]
      cases r.2.get layout with
      | ok ref =>
        simp only [Out.bind_ok]
        cases input.nQuads with
        | none => rfl
        | some q =>
          simp only [Out.bind_ok, Option.map_some]
          generalize Hydrate.hydrate (HyCtx.ofTerms (Registry.including st.layouts.registry (Registry.optional
            (if args.noPrelude then none else some env.prelude))) env.xsd env.le q.dedup) env.depth none ref subjects = x
          cases x with
          | ok v =>
            simp only [Out.mapErr, Out.bind_ok]
            cases v.untype.toJson <;> rfl
          | _ => rfl
      | _ => rfl
    | _ => rfl
  | _ => rfl

theorem run_dehydrate_json (env : FormatEnv F) (args : CliArgs) (layout : Option Term) (input : Input F) :
    runCli env args (some (.dehydrate .json .nQuads layout)) input =
      (dehydrateCommand env.toCommandEnv args layout input.json).bind fun q => .ok (some (.nQuads q)) := by
  simp only [runCli, loadFiles, dehydrateCommand, prepare, Command.run, RdfFormat.write, TreeFormat.load,
    FormatEnv.registry]
  cases loadLayouts env.load args.layouts ({} : CliState Term) DefaultLayout.none with
  | ok r =>
    simp only [Out.bind_ok]
    cases loadIncludes env.load args.includes r.1 with
    | ok st =>
      simp only [Out.bind_ok]
      cases r.2.get layout with
      | ok ref =>
        simp only [Out.bind_ok]
        cases input.json with
        | none => rfl
        | some j =>
          simp only []
          cases j.toValue with
          | ok v =>
            simp only [Out.ofTotal, Out.bind_ok]
            generalize Dehydrate.dehydrate _ _ _ _ _ = x
            cases x <;> rfl
          | err e => exact e.elim
          | _ => rfl
      | _ => rfl
    | _ => rfl
  | _ => rfl

/-- **C76** fails: the documents `-1`, `0` and `1e3` cannot be converted. The first is refused when it is printed in JSON, the
second makes the tool panic when it is printed in CBOR, and the last one when it is read. -/
theorem C76_numbers_fail (env : FormatEnv F) (args : CliArgs) (layouts : LayoutMap Term) (d : DefaultLayout Term)
    (doc : String → Input F) (hdoc : ∀ s, (doc s).json = some (.number s.toList)) :
    (Command.convertTree .json .json).run env args layouts d (doc "-1") = .err (.nonJsonValue (.number (-1))) ∧
    (Command.convertTree .json .cbor).run env args layouts d (doc "0") = .panic ∧
    ∀ o, (Command.convertTree .json o).run env args layouts d (doc "1e3") = .panic := by
  have h1 : (Json.number "-1".toList).toValue = .ok (.literal (.number (-1))) := by decide +kernel
  have h2 : (Json.number "0".toList).toValue = .ok (.literal (.number 0)) := by decide +kernel
  refine ⟨?_, ?_, fun o => ?_⟩
  · simp only [Command.run, runConvertTree, TreeFormat.load, hdoc, h1, Out.ofTotal, Out.bind_ok, TreeFormat.writeUntyped,
      C35_negative_counterexample (-1) (by decide), Out.mapErr, Out.bind]
  · simp only [Command.run, runConvertTree, TreeFormat.load, hdoc, h2, Out.ofTotal, Out.bind_ok, TreeFormat.writeUntyped,
      C50_zero_panics, Out.bind]
  · simp only [Command.run, runConvertTree, TreeFormat.load, hdoc, C35_exponent_panics.2, Out.ofTotal, Out.bind]

end Verif.Props
