import Verif.Cli
import Verif.SyntaxLemmas

/-!
# The prelude

Models `layouts/src/prelude.rs` and the documents of `layouts/prelude`.
-/

set_option linter.unusedSectionVars false
set_option linter.unusedSimpArgs false

namespace Verif

variable {R : Type} [DecidableEq R]

/-- The identifier of a layout of the prelude. -/
def preludeIri (name : String) : String := "https://treeldr.org/prelude#" ++ name

/-- The IRI of a datatype of XML Schema. -/
def xsdIri (name : String) : String := "http://www.w3.org/2001/XMLSchema#" ++ name

/-- The documents, as definitions (they are read by `serde_json::from_str(json).unwrap()`, which is not modelled).
`layouts/prelude/{unit,boolean,u8,u16,u32,u64,i8,i16,i32,i64,string,id}.json`, in the order of `layouts/src/prelude.rs` L14-27. -/
def preludeDefs : List SLayout :=
  [.unit { id := some (preludeIri "unit") } (.literal .unit),
   .boolean { id := some (preludeIri "boolean") } none none,
   .number { id := some (preludeIri "u8") } none (xsdIri "unsignedByte"),
   .number { id := some (preludeIri "u16") } none (xsdIri "unsignedShort"),
   .number { id := some (preludeIri "u32") } none (xsdIri "unsignedInt"),
   .number { id := some (preludeIri "u64") } none (xsdIri "unsignedLong"),
   .number { id := some (preludeIri "i8") } none (xsdIri "byte"),
   .number { id := some (preludeIri "i16") } none (xsdIri "short"),
   .number { id := some (preludeIri "i32") } none (xsdIri "int"),
   .number { id := some (preludeIri "i64") } none (xsdIri "long"),
   .textString { id := some (preludeIri "string") } none none none,
   .id { id := some (preludeIri "id") } none none]

/-- The loop of `Prelude::build`. `layouts/src/prelude.rs` L34-37. Errors are unwrapped. -/
def buildDefs (c : BuildCtx R) : List SLayout → Builder R → Out Empty (Builder R)
  | [], b => .ok b
  | l :: ls, b =>
    match l.buildTop c b with
    | (.ok _, b') => buildDefs c ls b'
    | (.err _, _) => .panic
    | (.panic, _) => .panic
    | (.fuel, _) => .fuel

/-- `Prelude::build`. `layouts/src/prelude.rs` L32-40. -/
def buildPrelude (c : BuildCtx R) (debug : Bool) (fuel : Nat) : Out Empty (LayoutMap R) :=
  (buildDefs c preludeDefs ⟨[], 0⟩).bind fun b => buildAll debug fuel b.layouts

/-! ## Specification -/

/-- A layout that describes its input alone, with a literal of a datatype. -/
def plainData (dt : R) : DataLayout R := { input := 1, intro := 0, dataset := [], resource := .var 0, datatype := dt }

/-- The layouts of the prelude. -/
def preludeTable (iri : String → R) : List (String × Layout R) :=
  [("unit", .unit { input := 1, intro := 0, dataset := [], const := .literal .unit }),
   ("boolean", .boolean (plainData (iri xsdBoolean))),
   ("u8", .number (plainData (iri (xsdIri "unsignedByte")))),
   ("u16", .number (plainData (iri (xsdIri "unsignedShort")))),
   ("u32", .number (plainData (iri (xsdIri "unsignedInt")))),
   ("u64", .number (plainData (iri (xsdIri "unsignedLong")))),
   ("i8", .number (plainData (iri (xsdIri "byte")))),
   ("i16", .number (plainData (iri (xsdIri "short")))),
   ("i32", .number (plainData (iri (xsdIri "int")))),
   ("i64", .number (plainData (iri (xsdIri "long")))),
   ("string", .textString { plainData (iri xsdString) with pattern := none }),
   ("id", .id { input := 1, intro := 0, dataset := [], pattern := none, resource := .var 0 })]

/-- The registry of the prelude, as specified. -/
def preludeRegistry (iri : String → R) : Registry R := fun r =>
  ((preludeTable iri).find? fun e => decide (iri (preludeIri e.1) = r)).map Prod.snd

/-- The IRIs used by the prelude. -/
def preludeIris : List String :=
  ["unit", "boolean", "u8", "u16", "u32", "u64", "i8", "i16", "i32", "i64", "string", "id"].map preludeIri ++
    ["unsignedByte", "unsignedShort", "unsignedInt", "unsignedLong", "byte", "short", "int", "long"].map xsdIri

/-! ## Lemmas -/

theorem resolve_plain {lib : IriLib} {s : Scope} {i : String} (hs : s.prefixes = []) (h : lib.isIri i = true) :
    CompactIri.resolve lib s i = .ok i := by
  simp [CompactIri.resolve, h, hs]

theorem header_plain (c : BuildCtx R) (i : Option CompactIri) : ∃ s : Scope, s.prefixes = [] ∧
    LayoutHeader.build c {} { id := i } = .ok ⟨1, 0, [], [], s⟩ := by
  refine ⟨({} : Scope).withIntro ["self"], ?_, ?_⟩
  · rfl
  · rfl

/-- The layout of a document of the prelude, before it is built. -/
def preludeEntry (c : BuildCtx R) : SLayout → Option (Entry R)
  | .unit _ k => some ⟨.unit { input := 1, intro := 0, dataset := [], const := k }, []⟩
  | .boolean _ _ _ => some ⟨.boolean (plainData (c.iri xsdBoolean)), []⟩
  | .number _ _ dt => some ⟨.number (plainData (c.iri dt)), []⟩
  | .textString _ _ _ _ => some ⟨.textString (plainData (c.iri xsdString)) none, []⟩
  | .id _ _ _ => some ⟨.id 1 0 [] none (.var 0), []⟩
  | _ => none

/-- The form of the documents of the prelude. -/
inductive Plain (lib : IriLib) : SLayout → String → Prop
  | unit {i : String} {k : Value} : lib.isIri i = true → Plain lib (.unit { id := some i } k) i
  | boolean {i : String} : lib.isIri i = true → Plain lib (.boolean { id := some i } none none) i
  | number {i dt : String} : lib.isIri i = true → lib.isIri dt = true → Plain lib (.number { id := some i } none dt) i
  | textString {i : String} : lib.isIri i = true → Plain lib (.textString { id := some i } none none none) i
  | id {i : String} : lib.isIri i = true → Plain lib (.id { id := some i } none none) i

theorem plain_build {c : BuildCtx R} {l : SLayout} {i : String} (h : Plain c.lib l i) (b : Builder R)
    (hb : b.layouts.lookup (c.iri i) = none) : ∃ e, preludeEntry c l = some e ∧
      l.buildTop c b = (.ok (c.iri i), ⟨bmapInsert c.le (c.iri i) e b.layouts, 0⟩) := by
  have hins : ∀ e : Entry R, insertLayout c (c.iri i) e { b with next := 0 } =
      (.ok (c.iri i), ⟨bmapInsert c.le (c.iri i) e b.layouts, 0⟩) := by
    intro e
    simp [insertLayout, hb]
  obtain ⟨s, hs, hh⟩ := header_plain c (some i)
  cases h with
  | unit hi =>
    refine ⟨_, rfl, ?_⟩
    simp only [SLayout.buildTop, SLayout.buildWithContext, SLayout.build, defineLayout, SLayout.layoutId, buildId, CompactIri.build,
      resolve_plain (s := {}) rfl hi, SLayout.buildBody, hh]
    exact hins _
  | boolean hi =>
    refine ⟨_, rfl, ?_⟩
    simp only [SLayout.buildTop, SLayout.buildWithContext, SLayout.build, defineLayout, SLayout.layoutId, buildId, CompactIri.build,
      resolve_plain (s := {}) rfl hi, SLayout.buildBody, hh]
    exact hins _
  | number hi hdt =>
    refine ⟨_, rfl, ?_⟩
    simp only [SLayout.buildTop, SLayout.buildWithContext, SLayout.build, defineLayout, SLayout.layoutId, buildId, CompactIri.build,
      resolve_plain (s := {}) rfl hi, SLayout.buildBody, hh, BuildM.bind, BuildM.lift, Out.bind, resolve_plain hs hdt]
    exact hins _
  | textString hi =>
    refine ⟨_, rfl, ?_⟩
    simp only [SLayout.buildTop, SLayout.buildWithContext, SLayout.build, defineLayout, SLayout.layoutId, buildId, CompactIri.build,
      resolve_plain (s := {}) rfl hi, SLayout.buildBody, hh]
    exact hins _
  | id hi =>
    refine ⟨_, rfl, ?_⟩
    simp only [SLayout.buildTop, SLayout.buildWithContext, SLayout.build, defineLayout, SLayout.layoutId, buildId, CompactIri.build,
      resolve_plain (s := {}) rfl hi, SLayout.buildBody, hh]
    exact hins _

/-- The builder after some documents with distinct identifiers. -/
theorem plain_buildDefs {c : BuildCtx R} {ls : List SLayout} {is : List String} (h : List.Forall₂ (Plain c.lib) ls is) :
    ∀ b : Builder R, (is.map c.iri).Nodup → (∀ i ∈ is, b.layouts.lookup (c.iri i) = none) →
      ∃ b', buildDefs c ls b = .ok b' ∧
        (∀ x ∈ b'.layouts, x ∈ b.layouts ∨ ∃ l ∈ ls, preludeEntry c l = some x.2) ∧
        ∀ r, b'.layouts.lookup r = (((ls.zip is).find? fun e => decide (c.iri e.2 = r)).bind fun e => preludeEntry c e.1).or
          (b.layouts.lookup r) := by
  induction h with
  | nil =>
    intro b _ _
    exact ⟨b, rfl, fun x hx => .inl hx, fun r => by simp⟩
  | @cons l i ls is hp _ ih =>
    intro b hd hb
    obtain ⟨e, he, hbuild⟩ := plain_build hp b (hb i (by simp))
    simp only [List.map_cons, List.nodup_cons, List.mem_map, not_exists, not_and] at hd
    obtain ⟨b', hb', hm, hl⟩ := ih ⟨bmapInsert c.le (c.iri i) e b.layouts, 0⟩ hd.2 fun i' hi' => by
      rw [lookup_bmapInsert, if_neg fun h => hd.1 i' hi' h]
      exact hb i' (by simp [hi'])
    refine ⟨b', by simp [buildDefs, hbuild, hb'], fun x hx => ?_, fun r => ?_⟩
    · rcases hm x hx with h | ⟨l', h, h'⟩
      · rcases mem_bmapInsert _ _ _ _ _ h with h | h
        · exact .inr ⟨l, by simp, by rw [he, h]⟩
        · exact .inl h
      · exact .inr ⟨l', by simp [h], h'⟩
    rw [hl, lookup_bmapInsert, List.zip_cons_cons, List.find?_cons]
    by_cases hr : c.iri i = r
    · simp only [hr, decide_true, if_pos, Option.bind_some, he, Option.some_or, if_true]
      have : (ls.zip is).find? (fun e => decide (c.iri e.2 = r)) = none := by
        rw [List.find?_eq_none]
        intro x hx
        simp only [decide_eq_true_eq]
        intro hx'
        refine hd.1 x.2 (List.of_mem_zip hx).2 ?_
        rw [hx', hr]
      simp [this]
    · have : ¬ r = c.iri i := fun h => hr h.symm
      simp only [hr, this, decide_false, if_false]

/-- The layouts of a builder, once built. -/
theorem buildAll_lookup {debug : Bool} {fuel : Nat} (es : List (R × Entry R))
    (h : ∀ x ∈ es, ∃ a, x.2.layout.build debug fuel = .ok a) : ∃ ls, buildAll debug fuel es = .ok ls ∧
      ∀ r a x, ls.lookup r = some (a, x) ↔ ∃ e, es.lookup r = some e ∧ e.layout.build debug fuel = .ok a ∧ e.extra = x := by
  induction es with
  | nil => exact ⟨[], rfl, by simp⟩
  | cons y es ih =>
    obtain ⟨r₀, e₀⟩ := y
    obtain ⟨a₀, ha₀⟩ := h _ (List.mem_cons_self ..)
    obtain ⟨ls, hls, hl⟩ := ih fun x hx => h x (List.mem_cons_of_mem _ hx)
    refine ⟨(r₀, a₀, e₀.extra) :: ls, ?_, fun r a x => ?_⟩
    · simp only at ha₀
      simp [buildAll, ha₀, hls]
    · rw [lookup_cons_ite, lookup_cons_ite]
      split
      · simp only at ha₀
        simp only [Option.some.injEq, Prod.mk.injEq, exists_eq_left', ha₀, Out.ok.injEq]
      · exact hl r a x

/-- The two tables agree. -/
theorem find_agree {c : BuildCtx R} {debug : Bool} {fuel : Nat} {as : List (SLayout × String)} {bs : List (String × Layout R)}
    (h : List.Forall₂ (fun a b => a.2 = preludeIri b.1 ∧ ∃ e, preludeEntry c a.1 = some e ∧ e.layout.build debug fuel = .ok b.2) as bs)
    (r : R) (l : Layout R) :
    (∃ e, ((as.find? fun e => decide (c.iri e.2 = r)).bind fun e => preludeEntry c e.1) = some e ∧
      e.layout.build debug fuel = .ok l) ↔ ((bs.find? fun e => decide (c.iri (preludeIri e.1) = r)).map Prod.snd) = some l := by
  induction h with
  | nil => simp
  | @cons a b as bs hab _ ih =>
    obtain ⟨h1, e, h2, h3⟩ := hab
    rw [List.find?_cons, List.find?_cons, h1]
    by_cases hr : c.iri (preludeIri b.1) = r
    · simp [hr, h2, h3]
    · simpa only [hr, decide_false] using ih

end Verif
