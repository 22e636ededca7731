import Verif.SyntaxPrintLemmas
import Verif.SyntaxSerdeLemmas

/-!
# Serialized layout definitions are deserialized

The definitions that are deserialized as they were (`SLayout.Stable`), and the proof. Conditions marked "invariant" hold of every
value of the corresponding Rust type; the other ones are restrictions.
-/

set_option linter.unusedSectionVars false
set_option linter.unusedSimpArgs false

namespace Verif

variable (P : PrintLib) (lib : ParseLib)

/-- Patterns: names and IRIs are valid (invariant); there is no literal with a language tag. -/
def SPattern.Stable : SPattern → Prop
  | .var x => lib.isBlankId ("_:" ++ x) = true
  | .iri i => lib.isIriRef i = true ∧ lib.isBlankId i = false
  | .literal _ (.iri i) => lib.isIriRef i = true
  | .literal _ (.language _) => False

/-- An optional pattern. -/
def optStable (p : Option SPattern) : Prop := ∀ q, p = some q → q.Stable lib

/-- A dataset. -/
def datasetStable (d : List (Quad SPattern)) : Prop :=
  ∀ q ∈ d, q.s.Stable lib ∧ q.p.Stable lib ∧ q.o.Stable lib ∧ optStable lib q.g

/-- Resources: IRIs are valid (invariant); there is no number. -/
def SResource.Stable : SResource → Prop
  | .number _ => False
  | .typed _ ty => lib.isIriRef ty = true
  | _ => True

/-- Headers: IRIs are valid and maps are in order (invariant); the input is not an array of one `self`. -/
structure LayoutHeader.Stable (h : LayoutHeader) : Prop where
  base : ∀ i, h.base = some i → lib.isIriRef i = true
  id : ∀ i, h.id = some i → lib.isIriRef i = true
  prefixes : ∀ e ∈ h.prefixes, lib.isIriRef e.2 = true
  prefixOrder : bmapCollect strLe h.prefixes = h.prefixes
  input : h.input ≠ .many ["self"]
  dataset : datasetStable lib h.dataset
  extra : ∀ e ∈ h.extra, lib.isIriRef e.1 = true ∧ e.2.Stable lib
  extraOrder : bmapCollect lib.leIri h.extra = h.extra

/-- A constant, other than the default one, is read back, and has no number. -/
def constStable (k : Value) : Prop := k ≠ .literal .unit → (P.const k).buffer = P.const k ∧ (P.const k).toValue = .ok k

mutual
/-- Layouts: the restrictions are that keys of records are text, and that constants and regular expressions are read back. -/
def SLayout.Stable : SLayout → Prop
  | .unit h k => h.Stable lib ∧ constStable P k
  | .boolean h r dt => h.Stable lib ∧ optStable lib r ∧ datatypeFaithful lib dt
  | .number h r dt => h.Stable lib ∧ optStable lib r ∧ lib.isIriRef dt = true
  | .byteString h r dt => h.Stable lib ∧ optStable lib r ∧ lib.isIriRef dt = true
  | .textString h e r dt => h.Stable lib ∧ regExpFaithful e ∧ optStable lib r ∧ datatypeFaithful lib dt
  | .id h e r => h.Stable lib ∧ regExpFaithful e ∧ optStable lib r
  | .product h fs => h.Stable lib ∧ bmapCollect Value.le fs = fs ∧ fieldsStable fs
  | .sum h vs => h.Stable lib ∧ bmapCollect strLe vs = vs ∧ variantsStable vs
  | .ordered h n hd tl => h.Stable lib ∧ n.Stable ∧ hd.Stable lib ∧ tl.Stable lib
  | .unordered h i => h.Stable lib ∧ i.Stable
  | .sized h is => h.Stable lib ∧ itemsStable is
  | .bool _ => True
  | .union h => h.Stable lib
  | .intersection h => h.Stable lib

/-- References. -/
def SLayoutRef.Stable : SLayoutRef → Prop
  | .ref i => lib.isIriRef i = true
  | .layout l => l.Stable

/-- Formats: the input is not an array of one default variable, the graph is not the default graph. -/
def SFormat.Stable (dflt : String) : SFormat → Prop
  | .format r input graph => r.Stable ∧ input ≠ .many [.var dflt] ∧ (∀ p ∈ input.asSlice, p.Stable lib) ∧
      graph ≠ some none ∧ (∀ g, graph = some (some g) → g.Stable lib)
  | .layout r => r.Stable

/-- Fields. -/
def SField.Stable : SField → Prop
  | .mk intro v ds p _ => intro ≠ .many ["value"] ∧ v.Stable "value" ∧ datasetStable lib ds ∧ optStable lib p

/-- The fields of a record: their keys are text. -/
def fieldsStable : List (Value × SField) → Prop
  | [] => True
  | (k, f) :: fs => k = Value.text (P.key k) ∧ f.Stable ∧ fieldsStable fs

/-- Variants. -/
def SVariant.Stable : SVariant → Prop
  | .mk _ v ds => v.Stable "self" ∧ datasetStable lib ds

/-- The variants of a sum. -/
def variantsStable : List (String × SVariant) → Prop
  | [] => True
  | (_, v) :: vs => v.Stable ∧ variantsStable vs

/-- Items. -/
def SItem.Stable : SItem → Prop
  | .mk intro v ds p => intro ≠ .many ["value"] ∧ v.Stable "value" ∧ datasetStable lib ds ∧ optStable lib p

/-- The items of a tuple. -/
def itemsStable : List SItem → Prop
  | [] => True
  | i :: is => i.Stable ∧ itemsStable is

/-- Nodes. -/
def SNode.Stable : SNode → Prop
  | .node _ _ intro v ds => intro ≠ .many ["value"] ∧ v.Stable "value" ∧ (∀ d, ds = some d → datasetStable lib d)
  | .layout r => r.Stable
end

namespace Serde

variable {P : PrintLib} {lib : ParseLib}

/-! ## The buffer of a serialized definition -/

/-- The document is its own buffer. -/
def Own (j : Json) : Prop := j.buffer = j

theorem own_string (s : String) : Own (.string s) := by simp [Own, Json.buffer]

theorem own_boolean (s : Bool) : Own (.boolean s) := by simp [Own, Json.buffer]

theorem own_array {l : List Json} (h : ∀ j ∈ l, Own j) : Own (.array l) := by
  unfold Own
  simp only [Json.buffer, Json.array.injEq]
  induction l with
  | nil => simp [Json.bufferList]
  | cons j l ih =>
    simp only [Json.bufferList, h j (.head _), ih fun j hj => h j (.tail _ hj)]
    rw [show j.buffer = j from h j (.head _)]

theorem own_object {o : JsonObject} (h : ∀ e ∈ o, Own e.2) : Own (.object o) := by
  unfold Own
  simp only [Json.buffer, Json.object.injEq]
  induction o with
  | nil => simp [Json.bufferEntries]
  | cons e o ih =>
    obtain ⟨k, j⟩ := e
    simp only [Json.bufferEntries, ih fun j hj => h j (.tail _ hj)]
    rw [show j.buffer = j from h (k, j) (.head _)]

theorem own_present {l : List (String × Option Json)} (h : ∀ e ∈ l, ∀ j, e.2 = some j → Own j) : Own (.object (present l)) :=
  own_object fun _ he => h _ (mem_present.1 he) _ rfl

theorem own_skip {c : Bool} {j : Json} (h : c = false → Own j) : ∀ j', skipIf c j = some j' → Own j' := by
  intro j' hj
  cases c with
  | true => cases hj
  | false => cases hj; exact h rfl

theorem own_some {j : Json} (h : Own j) : ∀ j', some j = some j' → Own j' := by rintro j' ⟨⟩; exact h

theorem own_map {α : Type} {p : α → Json} {a : Option α} (h : ∀ x, a = some x → Own (p x)) : ∀ j', a.map p = some j' → Own j' := by
  intro j' hj
  obtain ⟨x, hx, rfl⟩ := Option.map_eq_some_iff.1 hj
  exact h x hx

theorem own_pattern (p : SPattern) : Own p.print := by
  cases p with
  | var x => exact own_string _
  | iri i => exact own_string _
  | literal v ty =>
    refine own_present ?_
    intro e he
    rcases List.mem_cons.1 he with rfl | he
    · exact own_some (own_string _)
    · cases ty with
      | iri i =>
        obtain rfl := List.mem_singleton.1 he
        exact own_skip fun _ => own_string _
      | language t =>
        obtain rfl := List.mem_singleton.1 he
        exact own_some (own_string _)

theorem own_option (p : Option SPattern) : Own (printOption p) := by
  cases p with
  | none => simp [Own, printOption, Json.buffer]
  | some p => exact own_pattern p

theorem own_dataset (d : List (Quad SPattern)) : Own (printDataset d) := by
  refine own_array fun j hj => ?_
  obtain ⟨q, -, rfl⟩ := List.mem_map.1 hj
  refine own_array fun j hj => ?_
  rcases List.mem_append.1 hj with h | h
  · simp only [List.mem_cons, List.not_mem_nil, or_false] at h
    rcases h with rfl | rfl | rfl <;> exact own_pattern _
  · cases hg : q.g with
    | none => rw [hg] at h; cases h
    | some g =>
      rw [hg] at h
      simp only [Option.map_some, Option.toList_some, List.mem_singleton] at h
      subst h
      exact own_pattern _

theorem own_strings (i : OneOrMany String) : Own (i.print .string) := by
  cases i with
  | one s => exact own_string _
  | many l =>
    refine own_array fun j hj => ?_
    obtain ⟨s, -, rfl⟩ := List.mem_map.1 hj
    exact own_string _

theorem own_patterns (i : OneOrMany SPattern) : Own (i.print SPattern.print) := by
  cases i with
  | one s => exact own_pattern _
  | many l =>
    refine own_array fun j hj => ?_
    obtain ⟨s, -, rfl⟩ := List.mem_map.1 hj
    exact own_pattern _

theorem own_resource {r : SResource} (h : r.Stable lib) : Own r.print := by
  cases r with
  | boolean b => exact own_boolean _
  | number n => cases h
  | string s => exact own_string _
  | typed v ty =>
    refine own_object fun e he => ?_
    simp only [List.mem_cons, List.not_mem_nil, or_false] at he
    rcases he with rfl | rfl <;> exact own_string _

theorem own_regExp (e : RegExp) : Own e.print := own_string _

theorem own_kind {ty : String} {h : LayoutHeader} (hh : h.Stable lib) {ms : List (String × Option Json)}
    (hm : ∀ e ∈ ms, ∀ j, e.2 = some j → Own j) : Own (printKind ty h ms) := by
  refine own_present fun e he => ?_
  rcases List.mem_cons.1 he with rfl | he
  · exact own_some (own_string _)
  rcases List.mem_append.1 he with he | he
  · simp only [LayoutHeader.print, List.mem_cons, List.not_mem_nil, or_false] at he
    rcases he with rfl | rfl | rfl | rfl | rfl | rfl | rfl
    · exact own_map fun _ _ => own_string _
    · refine own_skip fun _ => own_object fun e he => ?_
      obtain ⟨e', -, rfl⟩ := List.mem_map.1 he
      exact own_string _
    · exact own_map fun _ _ => own_string _
    · exact own_skip fun _ => own_strings _
    · exact own_skip fun _ => own_strings _
    · exact own_skip fun _ => own_dataset _
    · refine own_skip fun _ => own_object fun e he => ?_
      obtain ⟨e', he', rfl⟩ := List.mem_map.1 he
      exact own_resource (hh.extra e' he').2
  · exact hm e he

mutual
theorem own_layout : ∀ l : SLayout, l.Stable P lib → Own (l.print P)
  | .unit hd k, ⟨h, hk⟩ => by
    refine own_kind h ?_
    intro e he
    simp only [List.mem_cons, List.not_mem_nil, or_false] at he
    subst he
    exact own_skip fun hc => (hk (by simpa using hc)).1
  | .boolean hd r dt, ⟨h, _⟩ => by
    refine own_kind h ?_
    intro e he
    simp only [List.mem_cons, List.not_mem_nil, or_false] at he
    rcases he with rfl | rfl
    · exact own_some (own_option _)
    · exact own_map fun _ _ => own_string _
  | .number hd r dt, ⟨h, _⟩ => by
    refine own_kind h ?_
    intro e he
    simp only [List.mem_cons, List.not_mem_nil, or_false] at he
    rcases he with rfl | rfl
    · exact own_some (own_option _)
    · exact own_some (own_string _)
  | .byteString hd r dt, ⟨h, _⟩ => by
    refine own_kind h ?_
    intro e he
    simp only [List.mem_cons, List.not_mem_nil, or_false] at he
    rcases he with rfl | rfl
    · exact own_some (own_option _)
    · exact own_some (own_string _)
  | .textString hd e r dt, ⟨h, _⟩ => by
    refine own_kind h ?_
    intro e he
    simp only [List.mem_cons, List.not_mem_nil, or_false] at he
    rcases he with rfl | rfl | rfl
    · exact own_map fun _ _ => own_regExp _
    · exact own_some (own_option _)
    · exact own_map fun _ _ => own_string _
  | .id hd e r, ⟨h, _⟩ => by
    refine own_kind h ?_
    intro e he
    simp only [List.mem_cons, List.not_mem_nil, or_false] at he
    rcases he with rfl | rfl
    · exact own_map fun _ _ => own_regExp _
    · exact own_some (own_option _)
  | .product hd fs, ⟨h, _, hf⟩ => by
    refine own_kind h ?_
    intro e he
    simp only [List.mem_cons, List.not_mem_nil, or_false] at he
    subst he
    exact own_skip fun _ => own_object (own_fields fs hf)
  | .sum hd vs, ⟨h, _, hv⟩ => by
    refine own_kind h ?_
    intro e he
    simp only [List.mem_cons, List.not_mem_nil, or_false] at he
    subst he
    exact own_skip fun _ => own_object (own_variants vs hv)
  | .ordered hd n hd' tl, ⟨h, hn, _⟩ => by
    refine own_kind h ?_
    intro e he
    simp only [List.mem_cons, List.not_mem_nil, or_false] at he
    rcases he with rfl | rfl | rfl
    · exact own_some (own_node n hn)
    · exact own_skip fun _ => own_pattern _
    · exact own_skip fun _ => own_pattern _
  | .unordered hd i, ⟨h, hi⟩ => by
    refine own_kind h ?_
    intro e he
    simp only [List.mem_cons, List.not_mem_nil, or_false] at he
    subst he
    exact own_some (own_item i hi)
  | .sized hd is, ⟨h, hi⟩ => by
    refine own_kind h ?_
    intro e he
    simp only [List.mem_cons, List.not_mem_nil, or_false] at he
    subst he
    exact own_skip fun _ => own_array (own_items is hi)
  | .bool b, _ => own_boolean b
  | .union hd, h => own_kind h (by simp)
  | .intersection hd, h => own_kind h (by simp)

theorem own_ref : ∀ r : SLayoutRef, r.Stable P lib → Own (r.print P)
  | .ref _, _ => own_string _
  | .layout l, h => own_layout l h

theorem own_format : ∀ (f : SFormat) (dflt : String), f.Stable P lib dflt → Own (f.print P dflt)
  | .format r input graph, dflt, h => by
    refine own_present ?_
    intro e he
    simp only [List.mem_cons, List.not_mem_nil, or_false] at he
    rcases he with rfl | rfl | rfl
    · exact own_some (own_ref r h.1)
    · exact own_skip fun _ => own_patterns _
    · exact own_map fun _ _ => own_option _
  | .layout r, _, h => own_ref r h

theorem own_field : ∀ f : SField, f.Stable P lib → Own (f.print P)
  | .mk intro v ds p req, h => by
    refine own_present ?_
    intro e he
    simp only [List.mem_cons, List.not_mem_nil, or_false] at he
    rcases he with rfl | rfl | rfl | rfl | rfl
    · exact own_skip fun _ => own_strings _
    · exact own_some (own_format v "value" h.2.1)
    · exact own_skip fun _ => own_dataset _
    · exact own_map fun _ _ => own_pattern _
    · exact own_skip fun _ => own_boolean _

theorem own_fields : ∀ fs : List (Value × SField), fieldsStable P lib fs → ∀ e ∈ printFields P fs, Own e.2
  | [], _ => by simp [printFields]
  | (k, f) :: fs, h => by
    intro e he
    simp only [printFields] at he
    rcases List.mem_cons.1 he with rfl | he
    · exact own_field f h.2.1
    · exact own_fields fs h.2.2 e he

theorem own_variant : ∀ v : SVariant, v.Stable P lib → Own (v.print P)
  | .mk intro v ds, h => by
    refine own_present ?_
    intro e he
    simp only [List.mem_cons, List.not_mem_nil, or_false] at he
    rcases he with rfl | rfl | rfl
    · exact own_skip fun _ => own_strings _
    · exact own_some (own_format v "self" h.1)
    · exact own_skip fun _ => own_dataset _

theorem own_variants : ∀ vs : List (String × SVariant), variantsStable P lib vs → ∀ e ∈ printVariants P vs, Own e.2
  | [], _ => by simp [printVariants]
  | (k, f) :: fs, h => by
    intro e he
    simp only [printVariants] at he
    rcases List.mem_cons.1 he with rfl | he
    · exact own_variant f h.1
    · exact own_variants fs h.2 e he

theorem own_item : ∀ i : SItem, i.Stable P lib → Own (i.print P)
  | .mk intro v ds p, h => by
    refine own_present ?_
    intro e he
    simp only [List.mem_cons, List.not_mem_nil, or_false] at he
    rcases he with rfl | rfl | rfl | rfl
    · exact own_skip fun _ => own_strings _
    · exact own_some (own_format v "value" h.2.1)
    · exact own_skip fun _ => own_dataset _
    · exact own_map fun _ _ => own_pattern _

theorem own_items : ∀ is : List SItem, itemsStable P lib is → ∀ j ∈ printItems P is, Own j
  | [], _ => by simp [printItems]
  | i :: is, h => by
    intro e he
    simp only [printItems] at he
    rcases List.mem_cons.1 he with rfl | he
    · exact own_item i h.1
    · exact own_items is h.2 e he

theorem own_node : ∀ n : SNode, n.Stable P lib → Own (n.print P)
  | .node head rest intro v ds, h => by
    refine own_present ?_
    intro e he
    simp only [List.mem_cons, List.not_mem_nil, or_false] at he
    rcases he with rfl | rfl | rfl | rfl | rfl
    · exact own_skip fun _ => own_string _
    · exact own_skip fun _ => own_string _
    · exact own_skip fun _ => own_strings _
    · exact own_some (own_format v "value" h.2.1)
    · exact own_map fun _ _ => own_dataset _
  | .layout r, h => own_ref r h
end

/-! ## Reading -/

theorem read_optional {α : Type} {p : Json → Option α} {q : α → Json} {a : Option α} (h : ∀ x, a = some x → q x ≠ .null ∧ p (q x) = some x) :
    optional p (a.map q) = some a := by
  cases a with
  | none => rfl
  | some x =>
    obtain ⟨h1, h2⟩ := h x rfl
    simp only [Option.map_some]
    generalize q x = j at h1 h2
    cases j with
    | null => exact absurd rfl h1
    | _ => simp [optional, h2]

theorem read_default {α : Type} {p : Json → Option α} {dflt a : α} {c : Bool} {j : Json} (h1 : c = true → a = dflt)
    (h2 : c = false → p j = some a) : withDefault dflt p (skipIf c j) = some a := by
  cases c with
  | true => rw [h1 rfl]; rfl
  | false => exact h2 rfl

theorem read_vec {α : Type} {p : Json → Option α} {q : α → Json} {l : List α} (h : ∀ a ∈ l, p (q a) = some a) :
    vec p (.array (l.map q)) = some l := by
  simp only [vec]
  induction l with
  | nil => rfl
  | cons a l ih =>
    rw [List.map_cons, List.mapM_cons, h a (.head _), ih fun a ha => h a (.tail _ ha)]
    rfl

theorem read_oneOrMany {α : Type} {p : Json → Option α} {q : α → Json} {i : OneOrMany α} (ha : ∀ js, p (.array js) = none)
    (h : ∀ a ∈ i.asSlice, p (q a) = some a) : oneOrMany p (i.print q) = some i := by
  cases i with
  | one a => simp [oneOrMany, OneOrMany.print, h a (by simp [OneOrMany.asSlice])]
  | many l => simp [oneOrMany, OneOrMany.print, ha, read_vec (q := q) (l := l) h]

theorem read_map {κ α β : Type} [DecidableEq κ] {le : κ → κ → Bool} {key : String → Option κ} {p : Json → Option α} {s : β → String}
    {q : β → Json} {a : β → κ × α} {l : List β} (h : ∀ b ∈ l, key (s b) = some (a b).1 ∧ p (q b) = some (a b).2)
    (ho : bmapCollect le (l.map a) = l.map a) : map le key p (.object (l.map fun b => (s b, q b))) = some (l.map a) := by
  simp only [map]
  have : ((l.map fun b => (s b, q b)).mapM fun e => (key e.1).bind fun k => (p e.2).map fun a => (k, a)) = some (l.map a) := by
    clear ho
    induction l with
    | nil => rfl
    | cons b l ih =>
      rw [List.map_cons, List.mapM_cons, ih fun a ha => h a (.tail _ ha)]
      simp only [h b (.head _), Option.bind_some, Option.map_some]
      rfl
  rw [this]
  simp [ho]

theorem read_iri {i : String} (h : lib.isIriRef i = true) : iri lib (.string i) = some i := by
  simp [iri, string, iriString, h]

theorem read_pattern {p : SPattern} (h : p.Stable lib) : pattern lib p.print = some p := by
  cases p with
  | var x =>
    simp only [SPattern.Stable] at h
    simp only [SPattern.print, pattern, h, if_true]
    simp [blankSuffix, String.toList_append]
  | iri i => simp [SPattern.print, pattern, h.1, h.2]
  | literal v ty =>
    cases ty with
    | iri i =>
      simp only [SPattern.Stable] at h
      by_cases hi : i = xsdString
      · subst hi
        simp [SPattern.print, pattern, SLitType.print, present, skipIf, literalValue, unique, required, string, literalTypeIri, withDefault]
      · have hi' : (i == xsdString) = false := beq_eq_false_iff_ne.2 hi
        simp [SPattern.print, pattern, SLitType.print, present, skipIf, hi', literalValue, unique, required, string, literalTypeIri,
          withDefault, read_iri h]
    | language t => cases h

theorem pattern_not_null (p : SPattern) : p.print ≠ .null := by cases p <;> simp [SPattern.print]

theorem read_option {p : Option SPattern} (h : optStable lib p) : optional (pattern lib) (some (printOption p)) = some p := by
  cases p with
  | none => rfl
  | some p =>
    exact read_optional (p := pattern lib) (q := SPattern.print) (a := some p) fun x hx => ⟨pattern_not_null x, read_pattern (h x hx)⟩

theorem read_optPattern {p : Option SPattern} (h : optStable lib p) : optional (pattern lib) (p.map SPattern.print) = some p :=
  read_optional fun x hx => ⟨pattern_not_null x, read_pattern (h x hx)⟩

theorem read_optIri {i : Option CompactIri} (h : ∀ x, i = some x → lib.isIriRef x = true) :
    optional (iri lib) (i.map .string) = some i := read_optional fun x hx => ⟨by simp, read_iri (h x hx)⟩

theorem read_quad {q : Quad SPattern} (hs : q.s.Stable lib) (hp : q.p.Stable lib) (ho : q.o.Stable lib) (hg : optStable lib q.g) :
    quad lib (SQuad.print q) = some q := by
  obtain ⟨s, p, o, g⟩ := q
  simp only at hs hp ho hg
  have := read_optPattern hg
  cases g with
  | none => simp [SQuad.print, quad, read_pattern hs, read_pattern hp, read_pattern ho, optional]
  | some g =>
    simp only [Option.map_some] at this
    simp [SQuad.print, quad, read_pattern hs, read_pattern hp, read_pattern ho, this]

theorem read_dataset {d : List (Quad SPattern)} (h : datasetStable lib d) : dataset lib (printDataset d) = some d :=
  read_vec fun q hq => let ⟨h1, h2, h3, h4⟩ := h q hq; read_quad h1 h2 h3 h4

theorem read_strings (i : OneOrMany String) : oneOrMany string (i.print .string) = some i :=
  read_oneOrMany string_array fun _ _ => rfl

theorem read_resource {r : SResource} (h : r.Stable lib) : resource lib r.print = some r := by
  cases r with
  | boolean b => rfl
  | number n => cases h
  | string s => rfl
  | typed v ty => simp [SResource.print, resource, unique, required, string, read_iri (lib := lib) h]

theorem read_name {i : OneOrMany String} {x : String} (hi : i ≠ .many [x]) :
    withDefault (.one x) (oneOrMany string) (skipIf (i.isName x) (i.print .string)) = some i := by
  refine read_default (fun h => ?_) fun _ => read_strings i
  cases i with
  | one s => simpa [OneOrMany.isName, OneOrMany.asSlice] using h
  | many l =>
    simp only [OneOrMany.isName, OneOrMany.asSlice, beq_iff_eq] at h
    exact absurd (congrArg _ h) hi

theorem read_intro {i : OneOrMany String} :
    withDefault (.many []) (oneOrMany string) (skipIf i.isEmpty (i.print .string)) = some i := by
  refine read_default (fun h => ?_) fun _ => read_strings i
  cases i with
  | one s => cases h
  | many l =>
    cases l with
    | nil => rfl
    | cons _ _ => cases h

theorem read_skipDataset {d : List (Quad SPattern)} (h : datasetStable lib d) :
    withDefault [] (dataset lib) (skipIf d.isEmpty (printDataset d)) = some d :=
  read_default (fun h => List.isEmpty_iff.1 h) fun _ => read_dataset h

/-- The keys of the header. -/
theorem header_keys (h : LayoutHeader) : h.print.map Prod.fst = ["base", "prefixes", "id", "input", "intro", "dataset", "extra"] := rfl

section

variable {ty : String} {h : LayoutHeader} {ms : List (String × Option Json)}

theorem kind_nodup (hn : ("type" :: (["base", "prefixes", "id", "input", "intro", "dataset", "extra"] ++ ms.map Prod.fst)).Nodup) :
    ((("type", some (Json.string ty)) :: (h.print ++ ms)).map Prod.fst).Nodup := by
  simpa [header_keys] using hn

theorem kind_lookup (hn : ("type" :: (["base", "prefixes", "id", "input", "intro", "dataset", "extra"] ++ ms.map Prod.fst)).Nodup)
    {k : String} {v : Option Json} (hm : (k, v) ∈ ms) :
    (present (("type", some (Json.string ty)) :: (h.print ++ ms))).lookup k = v :=
  present_lookup (kind_nodup hn) (.tail _ (List.mem_append_right _ hm))

theorem read_header (hn : ("type" :: (["base", "prefixes", "id", "input", "intro", "dataset", "extra"] ++ ms.map Prod.fst)).Nodup)
    (hh : h.Stable lib) : header lib (fun k => (present (("type", some (Json.string ty)) :: (h.print ++ ms))).lookup k) = some h := by
  have look : ∀ e ∈ h.print, (present (("type", some (Json.string ty)) :: (h.print ++ ms))).lookup e.1 = e.2 := fun e hm =>
    present_lookup (kind_nodup hn) (.tail _ (List.mem_append_left _ hm))
  simp only [LayoutHeader.print, List.mem_cons, List.not_mem_nil, or_false, forall_eq_or_imp, forall_eq] at look
  obtain ⟨l1, l2, l3, l4, l5, l6, l7⟩ := look
  have h2 := read_map (le := strLe) (key := some) (p := iri lib) (s := Prod.fst) (q := fun e => .string e.2) (a := id) (l := h.prefixes)
    (fun b hb => ⟨rfl, read_iri (hh.prefixes b hb)⟩) (by simpa using hh.prefixOrder)
  have h3 := read_map (le := lib.leIri) (key := iriString lib) (p := resource lib) (s := Prod.fst) (q := fun e => e.2.print) (a := id)
    (l := h.extra) (fun b hb => ⟨by simp [iriString, (hh.extra b hb).1], read_resource (hh.extra b hb).2⟩) (by simpa using hh.extraOrder)
  simp only [List.map_id_fun, id_eq] at h2 h3
  have h4 := read_default (p := map strLe some (iri lib)) (dflt := []) (c := h.prefixes.isEmpty) (fun h => List.isEmpty_iff.1 h) fun _ => h2
  have h5 := read_default (p := map lib.leIri (iriString lib) (resource lib)) (dflt := []) (c := h.extra.isEmpty)
    (fun h => List.isEmpty_iff.1 h) fun _ => h3
  simp only [header, LayoutHeader.print]
  simp only [l1, l2, l3, l4, l5, l6, l7, read_optIri hh.base, read_optIri hh.id, read_name hh.input, read_intro,
    read_skipDataset hh.dataset, h4, h5, Option.bind_some]

theorem read_kind {names : List String} (hms : ms.map Prod.fst = names)
    (hn : ("type" :: (["base", "prefixes", "id", "input", "intro", "dataset", "extra"] ++ names)).Nodup)
    (hh : h.Stable lib) : ∃ f, (∀ body, kind lib ty names body (printKind ty h ms) = body h f) ∧ ∀ e ∈ ms, f e.1 = e.2 := by
  subst hms
  have hm : Members (present (("type", some (Json.string ty)) :: (h.print ++ ms))) (ms.map Prod.fst ++ headerMembers) := by
    refine present_members (kind_nodup hn) ?_
    intro k hk
    simp only [List.map_cons, List.map_append, header_keys, List.mem_cons, List.mem_append, List.not_mem_nil, or_false, headerMembers]
      at hk ⊢
    tauto
  have ht : (present (("type", some (Json.string ty)) :: (h.print ++ ms))).lookup "type" = some (.string ty) :=
    present_lookup (kind_nodup hn) (.head _)
  refine ⟨fun k => (present (("type", some (Json.string ty)) :: (h.print ++ ms))).lookup k, fun body => ?_,
    fun e he => kind_lookup hn he⟩
  simp only [kind, printKind, mapFields_of hm, Option.bind_some, ht, required, string, if_true, read_header hn hh]

theorem other_kind {ty' : String} (hne : ty ≠ ty') (ms' : List String) (body : LayoutHeader → (String → Option Json) → Option SLayout) :
    kind lib ty' ms' body (printKind ty h ms) = none :=
  kind_other (ty := ty) (by simp [present, List.lookup_cons]) hne ms' body

end

section

variable {rec : Json → Option SLayout} {d : Nat}

/-- The deserializer of nested layouts is right up to a given depth. -/
def RecPrint (P : PrintLib) (lib : ParseLib) (rec : Json → Option SLayout) (d : Nat) : Prop :=
  ∀ l : SLayout, l.Stable P lib → (l.print P).depth ≤ d → rec (l.print P) = some l

variable (hrec : RecPrint P lib rec d)
include hrec

omit hrec in
theorem layout_not_iri (l : SLayout) : iri lib (l.print P) = none := by
  cases l <;> simp [SLayout.print, printKind, iri, string]

omit hrec in
theorem layout_not_fields (l : SLayout) {names : List String} (hn : "type" ∉ names) : fields names (l.print P) = none := by
  have : ∀ ty h ms, fields names (printKind ty h ms) = none := by
    intro ty h ms
    simp only [printKind, fields]
    cases hm : mapFields names (present (("type", some (Json.string ty)) :: (h.print ++ ms))) with
    | none => rfl
    | some f => exact absurd ((mapFields_eq hm).1.2 ("type", .string ty) (by simp [present])) hn
  cases l <;> simp only [SLayout.print, this]
  rfl

theorem read_ref {r : SLayoutRef} (h : r.Stable P lib) (hd : (r.print P).depth ≤ d) : ref lib rec (r.print P) = some r := by
  cases r with
  | ref i => simp [SLayoutRef.print, ref, read_iri (lib := lib) h]
  | layout l => simp [SLayoutRef.print, ref, layout_not_iri, hrec l h hd]

omit hrec in
theorem present_depth {l : List (String × Option Json)} (hd : (Json.object (present l)).depth ≤ d) {k : String} {j : Json}
    (h : (k, some j) ∈ l) : j.depth ≤ d := by
  have := depth_entries (mem_present.2 h : (k, j) ∈ present l)
  simp only [Json.depth] at hd
  simp only at this
  omega

omit hrec in
theorem read_fields {l : List (String × Option Json)} {names : List String} (hn : (l.map Prod.fst).Nodup)
    (hs : l.map Prod.fst ⊆ names) : fields names (.object (present l)) = some fun k => (present l).lookup k :=
  mapFields_of (present_members hn hs)

theorem read_format {f : SFormat} {dflt : String} (h : f.Stable P lib dflt) (hd : (f.print P dflt).depth ≤ d) :
    format lib rec dflt (f.print P dflt) = some f := by
  cases f with
  | layout r =>
    have hf : fields ["layout", "input", "graph"] (r.print P) = none := by
      cases r with
      | ref i => rfl
      | layout l => exact layout_not_fields l (by decide)
    simp only [SFormat.print, format, formatStruct, hf]
    simp [read_ref hrec h hd]
  | format r input graph =>
    obtain ⟨hr, hi, hi', hg, hg'⟩ := h
    simp only [SFormat.print] at hd ⊢
    have hn : ([("layout", some (r.print P)), ("input", skipIf (input.isVar dflt) (input.print SPattern.print)),
       ("graph", graph.map printOption)].map Prod.fst).Nodup := by simp
    have h1 := read_ref hrec hr (present_depth hd (.head _))
    have h2 : withDefault (.one (.var dflt)) (oneOrMany (pattern lib)) (skipIf (input.isVar dflt) (input.print SPattern.print)) = some input := by
      refine read_default (fun h => ?_) fun _ => read_oneOrMany pattern_array fun p hp => read_pattern (hi' p hp)
      cases input with
      | one s => simpa [OneOrMany.isVar, OneOrMany.asSlice] using h
      | many l =>
        simp only [OneOrMany.isVar, OneOrMany.asSlice, beq_iff_eq] at h
        exact absurd (congrArg _ h) hi
    have h3 : optional (optional (pattern lib) ∘ some) (graph.map printOption) = some graph := by
      refine read_optional fun x hx => ?_
      subst hx
      cases x with
      | none => exact absurd rfl hg
      | some g =>
        refine ⟨pattern_not_null g, ?_⟩
        exact read_option (p := some g) (by rintro q ⟨⟩; exact hg' g rfl)
    simp only [format, formatStruct, read_fields hn (names := ["layout", "input", "graph"]) (by simp), Option.bind_some]
    rw [present_lookup hn (k := "layout") (.head _), present_lookup hn (k := "input") (.tail _ (.head _)),
      present_lookup hn (k := "graph") (.tail _ (.tail _ (.head _)))]
    simp only [required, Option.bind_some, h1, h2, h3]
    rfl

theorem read_field {f : SField} (h : f.Stable P lib) (hd : (f.print P).depth ≤ d) : field lib rec (f.print P) = some f := by
  obtain ⟨intro, v, ds, p, req⟩ := f
  obtain ⟨h1, h2, h3, h4⟩ := h
  simp only [SField.print] at hd ⊢
  have hv := read_format hrec h2 (present_depth hd (.tail _ (.head _)))
  have hq : withDefault false bool (skipIf (!req) (.boolean req)) = some req := by cases req <;> rfl
  have hn : ([("intro", skipIf (intro.isName "value") (intro.print .string)), ("value", some (v.print P "value")),
       ("dataset", skipIf ds.isEmpty (printDataset ds)), ("property", p.map SPattern.print),
       ("required", skipIf (!req) (.boolean req))].map Prod.fst).Nodup := by simp
  simp only [field, read_fields hn (names := ["intro", "value", "dataset", "property", "required"]) (by simp), Option.bind_some]
  rw [present_lookup hn (k := "intro") (.head _), present_lookup hn (k := "value") (.tail _ (.head _)),
    present_lookup hn (k := "dataset") (.tail _ (.tail _ (.head _))),
    present_lookup hn (k := "property") (.tail _ (.tail _ (.tail _ (.head _)))),
    present_lookup hn (k := "required") (.tail _ (.tail _ (.tail _ (.tail _ (.head _)))))]
  rw [read_name h1, read_skipDataset h3, read_optPattern h4, hq]
  simp only [required, Option.bind_some, hv]

theorem read_variant {v : SVariant} (h : v.Stable P lib) (hd : (v.print P).depth ≤ d) : variant lib rec (v.print P) = some v := by
  obtain ⟨intro, v, ds⟩ := v
  obtain ⟨h2, h3⟩ := h
  simp only [SVariant.print] at hd ⊢
  have hv := read_format hrec h2 (present_depth hd (.tail _ (.head _)))
  have hn : ([("intro", skipIf intro.isEmpty (intro.print .string)), ("value", some (v.print P "self")),
       ("dataset", skipIf ds.isEmpty (printDataset ds))].map Prod.fst).Nodup := by simp
  simp only [variant, read_fields hn (names := ["intro", "value", "dataset"]) (by simp), Option.bind_some]
  rw [present_lookup hn (k := "intro") (.head _), present_lookup hn (k := "value") (.tail _ (.head _)),
    present_lookup hn (k := "dataset") (.tail _ (.tail _ (.head _)))]
  rw [read_intro, read_skipDataset h3]
  simp only [required, Option.bind_some, hv]

theorem read_item {i : SItem} (h : i.Stable P lib) (hd : (i.print P).depth ≤ d) : item lib rec (i.print P) = some i := by
  obtain ⟨intro, v, ds, p⟩ := i
  obtain ⟨h1, h2, h3, h4⟩ := h
  simp only [SItem.print] at hd ⊢
  have hv := read_format hrec h2 (present_depth hd (.tail _ (.head _)))
  have hn : ([("intro", skipIf (intro.isName "value") (intro.print .string)), ("value", some (v.print P "value")),
       ("dataset", skipIf ds.isEmpty (printDataset ds)), ("property", p.map SPattern.print)].map Prod.fst).Nodup := by simp
  simp only [item, read_fields hn (names := ["intro", "value", "dataset", "property"]) (by simp), Option.bind_some]
  rw [present_lookup hn (k := "intro") (.head _), present_lookup hn (k := "value") (.tail _ (.head _)),
    present_lookup hn (k := "dataset") (.tail _ (.tail _ (.head _))),
    present_lookup hn (k := "property") (.tail _ (.tail _ (.tail _ (.head _))))]
  rw [read_name h1, read_skipDataset h3, read_optPattern h4]
  simp only [required, Option.bind_some, hv]

theorem read_node {n : SNode} (h : n.Stable P lib) (hd : (n.print P).depth ≤ d) : node lib rec (n.print P) = some n := by
  cases n with
  | layout r =>
    have hf : fields ["head", "rest", "intro", "value", "dataset"] (r.print P) = none := by
      cases r with
      | ref i => rfl
      | layout l => exact layout_not_fields l (by decide)
    simp only [SNode.print, node, nodeStruct, hf]
    simp [read_ref hrec h hd]
  | node head rest intro v ds =>
    obtain ⟨h1, h2, h3⟩ := h
    simp only [SNode.print] at hd ⊢
    have hv := read_format hrec h2 (present_depth hd (.tail _ (.tail _ (.tail _ (.head _)))))
    have hh : ∀ x y : String, withDefault y string (skipIf (x == y) (.string x)) = some x := fun x y =>
      read_default (fun h => by simpa using h) fun _ => rfl
    have hds : optional (dataset lib) (ds.map printDataset) = some ds :=
      read_optional fun x hx => ⟨by simp [printDataset], read_dataset (h3 x hx)⟩
    have hn : ([("head", skipIf (head == "head") (Json.string head)), ("rest", skipIf (rest == "rest") (Json.string rest)),
       ("intro", skipIf (intro.isName "value") (intro.print .string)), ("value", some (v.print P "value")),
       ("dataset", ds.map printDataset)].map Prod.fst).Nodup := by simp
    simp only [node, nodeStruct, read_fields hn (names := ["head", "rest", "intro", "value", "dataset"]) (by simp), Option.bind_some]
    rw [present_lookup hn (k := "head") (.head _), present_lookup hn (k := "rest") (.tail _ (.head _)),
      present_lookup hn (k := "intro") (.tail _ (.tail _ (.head _))),
      present_lookup hn (k := "value") (.tail _ (.tail _ (.tail _ (.head _)))),
      present_lookup hn (k := "dataset") (.tail _ (.tail _ (.tail _ (.tail _ (.head _)))))]
    rw [hh, hh, read_name h1, hds]
    simp only [required, Option.bind_some, hv]
    rfl

omit hrec in
theorem fields_stable (fs : List (Value × SField)) (h : fieldsStable P lib fs) :
    (∀ e ∈ fs, e.1 = Value.text (P.key e.1) ∧ e.2.Stable P lib) ∧ printFields P fs = fs.map fun e => (P.key e.1, e.2.print P) := by
  induction fs with
  | nil => simp [printFields]
  | cons e fs ih =>
    obtain ⟨k, f⟩ := e
    obtain ⟨h1, h2, h3⟩ := h
    obtain ⟨ih1, ih2⟩ := ih h3
    simp only [printFields, ih2, List.map_cons, List.mem_cons, forall_eq_or_imp, and_true]
    exact ⟨⟨h1, h2⟩, ih1⟩

omit hrec in
theorem variants_stable (vs : List (String × SVariant)) (h : variantsStable P lib vs) :
    (∀ e ∈ vs, e.2.Stable P lib) ∧ printVariants P vs = vs.map fun e => (e.1, e.2.print P) := by
  induction vs with
  | nil => simp [printVariants]
  | cons e fs ih =>
    obtain ⟨k, f⟩ := e
    obtain ⟨h2, h3⟩ := h
    obtain ⟨ih1, ih2⟩ := ih h3
    simp only [printVariants, ih2, List.map_cons, List.mem_cons, forall_eq_or_imp, and_true]
    exact ⟨h2, ih1⟩

omit hrec in
theorem items_stable (is : List SItem) (h : itemsStable P lib is) :
    (∀ e ∈ is, e.Stable P lib) ∧ printItems P is = is.map fun e => e.print P := by
  induction is with
  | nil => simp [printItems]
  | cons e fs ih =>
    obtain ⟨h2, h3⟩ := h
    obtain ⟨ih1, ih2⟩ := ih h3
    simp only [printItems, ih2, List.map_cons, List.mem_cons, forall_eq_or_imp, and_true]
    exact ⟨h2, ih1⟩

omit hrec in
theorem entry_depth {o : JsonObject} {d : Nat} (hd : (Json.object o).depth ≤ d) {e : String × Json} (he : e ∈ o) : e.2.depth ≤ d := by
  have := depth_entries he
  simp only [Json.depth] at hd
  omega

omit hrec in
theorem skip_mem {l : List (String × Option Json)} {k : String} {c : Bool} {j : Json} (hc : c = false) (h : (k, skipIf c j) ∈ l) :
    (k, some j) ∈ l := by
  subst hc
  exact h

theorem read_layout {l : SLayout} (h : l.Stable P lib) (hd : (l.print P).depth ≤ d + 1) :
    untagged (readers lib rec) (l.print P) = some l := by
  have nob : ∀ ty h ms, boolLayout (printKind ty h ms) = none := fun _ _ _ => rfl
  have depth : ∀ {ty h ms k j}, (printKind ty h ms).depth ≤ d + 1 → (k, some j) ∈ ms → j.depth ≤ d := by
    intro ty h ms k j hd hm
    have := depth_entries (mem_present.2 (.tail _ (List.mem_append_right _ hm)) :
      (k, j) ∈ present (("type", some (Json.string ty)) :: (h.print ++ ms)))
    simp only [printKind, Json.depth] at hd
    simp only at this
    omega
  have re : ∀ {e : Option RegExp}, regExpFaithful e → optional regExp (e.map RegExp.print) = some e := fun he =>
    read_optional fun x hx => ⟨by simp [RegExp.print], by
      obtain ⟨s, hs, hp⟩ := regExp_doc he x hx
      simp [hs, regExp, string, hp]⟩
  simp only [untagged, readers, List.findSome?_cons, List.findSome?_nil, unitLayout, booleanLayout, numberLayout, byteStringLayout,
    textStringLayout, idLayout, productLayout, sumLayout, orderedLayout, unorderedLayout, sizedLayout, unionLayout,
    intersectionLayout]
  cases l with
  | bool b => rfl
  | unit hd k =>
    simp only [SLayout.print]
    have := read_default (p := const) (dflt := .literal .unit) (a := k) (c := k == .literal .unit) (j := P.const k)
      (fun h => by simpa using h) fun hc => by
        have := (h.2 (by simpa using hc)).2
        simp [const, this]
    obtain ⟨f, hf, hl⟩ := read_kind (ty := "unit") (ms := [("const", skipIf (k == .literal .unit) (P.const k))])
      (names := ["const"]) rfl (by decide) h.1
    simp only [List.mem_cons, List.not_mem_nil, or_false, forall_eq_or_imp, forall_eq] at hl
    rw [hf]
    simp only [hl, this]
    rfl
  | boolean hd r dt =>
    simp only [SLayout.print]
    rw [other_kind (by decide)]
    obtain ⟨f, hf, hl⟩ := read_kind (ty := "boolean") (ms := [("resource", some (printOption r)), ("datatype", dt.map .string)])
      (names := ["resource", "datatype"]) rfl (by decide) h.1
    simp only [List.mem_cons, List.not_mem_nil, or_false, forall_eq_or_imp, forall_eq] at hl
    rw [hf]
    simp only [hl.1, hl.2,
      read_option h.2.1, read_optIri h.2.2]
    rfl
  | number hd r dt =>
    simp only [SLayout.print]
    rw [other_kind (by decide), other_kind (by decide)]
    obtain ⟨f, hf, hl⟩ := read_kind (ty := "number") (ms := [("resource", some (printOption r)), ("datatype", some (.string dt))])
      (names := ["resource", "datatype"]) rfl (by decide) h.1
    simp only [List.mem_cons, List.not_mem_nil, or_false, forall_eq_or_imp, forall_eq] at hl
    rw [hf]
    simp only [hl.1, hl.2,
      read_option h.2.1]
    simp only [required, Option.bind_some, read_iri h.2.2, Option.map_some]
  | byteString hd r dt =>
    simp only [SLayout.print]
    rw [other_kind (by decide), other_kind (by decide), other_kind (by decide)]
    obtain ⟨f, hf, hl⟩ := read_kind (ty := "bytes") (ms := [("resource", some (printOption r)), ("datatype", some (.string dt))])
      (names := ["resource", "datatype"]) rfl (by decide) h.1
    simp only [List.mem_cons, List.not_mem_nil, or_false, forall_eq_or_imp, forall_eq] at hl
    rw [hf]
    simp only [hl.1, hl.2,
      read_option h.2.1]
    simp only [required, Option.bind_some, read_iri h.2.2, Option.map_some]
  | textString hd e r dt =>
    simp only [SLayout.print]
    rw [other_kind (by decide), other_kind (by decide), other_kind (by decide), other_kind (by decide)]
    obtain ⟨f, hf, hl⟩ := read_kind (ty := "string") (ms := [("pattern", e.map RegExp.print), ("resource", some (printOption r)), ("datatype", dt.map .string)])
      (names := ["pattern", "resource", "datatype"]) rfl (by decide) h.1
    simp only [List.mem_cons, List.not_mem_nil, or_false, forall_eq_or_imp, forall_eq] at hl
    rw [hf]
    simp only [hl.1, hl.2.1, hl.2.2, re h.2.1, read_option h.2.2.1, read_optIri h.2.2.2]
    rfl
  | id hd e r =>
    simp only [SLayout.print]
    rw [other_kind (by decide), other_kind (by decide), other_kind (by decide), other_kind (by decide), other_kind (by decide)]
    obtain ⟨f, hf, hl⟩ := read_kind (ty := "id") (ms := [("pattern", e.map RegExp.print), ("resource", some (printOption r))])
      (names := ["pattern", "resource"]) rfl (by decide) h.1
    simp only [List.mem_cons, List.not_mem_nil, or_false, forall_eq_or_imp, forall_eq] at hl
    rw [hf]
    simp only [hl.1, hl.2,
      re h.2.1, read_option h.2.2]
    rfl
  | product hh fs =>
    simp only [SLayout.print] at hd ⊢
    rw [other_kind (by decide), other_kind (by decide), other_kind (by decide), other_kind (by decide), other_kind (by decide),
      other_kind (by decide)]
    obtain ⟨h1, h2, h3⟩ := h
    obtain ⟨h3, h4⟩ := fields_stable fs h3
    have := read_default (p := map Value.le (fun k => some (Value.text k)) (field lib rec)) (dflt := []) (a := fs) (c := fs.isEmpty)
      (j := .object (printFields P fs)) (fun h => List.isEmpty_iff.1 h) fun hc => by
        have hd' := depth hd (skip_mem hc (.head _))
        rw [h4] at hd' ⊢
        have := read_map (le := Value.le) (key := fun k => some (Value.text k)) (p := field lib rec) (s := fun e : Value × SField => P.key e.1)
          (q := fun e => e.2.print P) (a := id) (l := fs) (fun e he => ⟨congrArg some (h3 e he).1.symm,
            read_field hrec (h3 e he).2 (entry_depth hd' (List.mem_map.2 ⟨e, he, rfl⟩))⟩) (by simpa using h2)
        simpa using this
    obtain ⟨f, hf, hl⟩ := read_kind (ty := "record") (ms := [("fields", skipIf fs.isEmpty (.object (printFields P fs)))])
      (names := ["fields"]) rfl (by decide) h1
    simp only [List.mem_cons, List.not_mem_nil, or_false, forall_eq_or_imp, forall_eq] at hl
    rw [hf]
    simp only [hl, this]
    rfl
  | sum hh vs =>
    simp only [SLayout.print] at hd ⊢
    rw [other_kind (by decide), other_kind (by decide), other_kind (by decide), other_kind (by decide), other_kind (by decide),
      other_kind (by decide), other_kind (by decide)]
    obtain ⟨h1, h2, h3⟩ := h
    obtain ⟨h3, h4⟩ := variants_stable vs h3
    have := read_default (p := map strLe some (variant lib rec)) (dflt := []) (a := vs) (c := vs.isEmpty)
      (j := .object (printVariants P vs)) (fun h => List.isEmpty_iff.1 h) fun hc => by
        have hd' := depth hd (skip_mem hc (.head _))
        rw [h4] at hd' ⊢
        have := read_map (le := strLe) (key := some) (p := variant lib rec) (s := fun e : String × SVariant => e.1)
          (q := fun e => e.2.print P) (a := id) (l := vs) (fun e he => ⟨rfl,
            read_variant hrec (h3 e he) (entry_depth hd' (List.mem_map.2 ⟨e, he, rfl⟩))⟩) (by simpa using h2)
        simpa using this
    obtain ⟨f, hf, hl⟩ := read_kind (ty := "sum") (ms := [("variants", skipIf vs.isEmpty (.object (printVariants P vs)))])
      (names := ["variants"]) rfl (by decide) h1
    simp only [List.mem_cons, List.not_mem_nil, or_false, forall_eq_or_imp, forall_eq] at hl
    rw [hf]
    simp only [hl, this]
    rfl
  | ordered hh n hd' tl =>
    simp only [SLayout.print] at hd ⊢
    rw [other_kind (by decide), other_kind (by decide), other_kind (by decide), other_kind (by decide), other_kind (by decide),
      other_kind (by decide), other_kind (by decide), other_kind (by decide)]
    obtain ⟨h1, h2, h3, h4⟩ := h
    have hn := read_node hrec h2 (depth hd (.head _))
    have pat : ∀ {p q : SPattern}, p.Stable lib → withDefault q (pattern lib) (skipIf (p == q) p.print) = some p := fun hp =>
      read_default (fun h => by simpa using h) fun _ => read_pattern hp
    obtain ⟨f, hf, hl⟩ := read_kind (ty := "list") (ms := [("node", some (n.print P)), ("head", skipIf (hd' == .var "self") hd'.print), ("tail", skipIf (tl == .iri rdfNil) tl.print)])
      (names := ["node", "head", "tail"]) rfl (by decide) h1
    simp only [List.mem_cons, List.not_mem_nil, or_false, forall_eq_or_imp, forall_eq] at hl
    rw [hf]
    simp only [hl.1, hl.2.1, hl.2.2, pat h3, pat h4]
    simp only [required, Option.bind_some, hn, Option.map_some]
  | unordered hh i =>
    simp only [SLayout.print] at hd ⊢
    rw [other_kind (by decide), other_kind (by decide), other_kind (by decide), other_kind (by decide), other_kind (by decide),
      other_kind (by decide), other_kind (by decide), other_kind (by decide), other_kind (by decide)]
    obtain ⟨h1, h2⟩ := h
    have hi := read_item hrec h2 (depth hd (.head _))
    obtain ⟨f, hf, hl⟩ := read_kind (ty := "set") (ms := [("item", some (i.print P))])
      (names := ["item"]) rfl (by decide) h1
    simp only [List.mem_cons, List.not_mem_nil, or_false, forall_eq_or_imp, forall_eq] at hl
    rw [hf]
    simp only [hl]
    simp only [required, Option.bind_some, hi, Option.map_some]
  | sized hh is =>
    simp only [SLayout.print] at hd ⊢
    rw [other_kind (by decide), other_kind (by decide), other_kind (by decide), other_kind (by decide), other_kind (by decide),
      other_kind (by decide), other_kind (by decide), other_kind (by decide), other_kind (by decide), other_kind (by decide)]
    obtain ⟨h1, h3⟩ := h
    obtain ⟨h3, h4⟩ := items_stable is h3
    have := read_default (p := vec (item lib rec)) (dflt := []) (a := is) (c := is.isEmpty)
      (j := .array (printItems P is)) (fun h => List.isEmpty_iff.1 h) fun hc => by
        have hd' := depth hd (skip_mem hc (.head _))
        rw [h4] at hd' ⊢
        refine read_vec fun e he => read_item hrec (h3 e he) ?_
        have := depth_list (List.mem_map.2 ⟨e, he, rfl⟩ : e.print P ∈ is.map fun e => e.print P)
        simp only [Json.depth] at hd'
        omega
    obtain ⟨f, hf, hl⟩ := read_kind (ty := "tuple") (ms := [("items", skipIf is.isEmpty (.array (printItems P is)))])
      (names := ["items"]) rfl (by decide) h1
    simp only [List.mem_cons, List.not_mem_nil, or_false, forall_eq_or_imp, forall_eq] at hl
    rw [hf]
    simp only [hl, this]
    rfl
  | union hh =>
    simp only [SLayout.print]
    rw [other_kind (by decide), other_kind (by decide), other_kind (by decide), other_kind (by decide), other_kind (by decide),
      other_kind (by decide), other_kind (by decide), other_kind (by decide), other_kind (by decide), other_kind (by decide),
      other_kind (by decide), nob]
    obtain ⟨f, hf, hl⟩ := read_kind (ty := "union") (ms := [])
      (names := []) rfl (by decide) h
    rw [hf]
  | intersection hh =>
    simp only [SLayout.print]
    rw [other_kind (by decide), other_kind (by decide), other_kind (by decide), other_kind (by decide), other_kind (by decide),
      other_kind (by decide), other_kind (by decide), other_kind (by decide), other_kind (by decide), other_kind (by decide),
      other_kind (by decide), nob, other_kind (by decide)]
    obtain ⟨f, hf, hl⟩ := read_kind (ty := "intersection") (ms := [])
      (names := []) rfl (by decide) h
    rw [hf]

end

theorem layoutN_print (n : Nat) : RecPrint P lib (layoutN lib (n + 1)) n := by
  induction n with
  | zero =>
    intro l h hd
    cases l with
    | bool b => rfl
    | _ => simp [SLayout.print, printKind, Json.depth] at hd
  | succ n ih => exact fun l h hd => read_layout ih h hd

/-- A stable definition is deserialized from its serialization. -/
theorem layout_of_print {l : SLayout} (h : l.Stable P lib) : layout lib (l.print P) = some l := by
  unfold layout
  rw [show (l.print P).buffer = l.print P from own_layout l h]
  exact layoutN_print _ l h le_rfl

end Serde

end Verif
