import Verif.SyntaxPrint
import Verif.SyntaxParseMain
import Verif.JsonLemmas

/-!
# Printing a faithful layout definition gives a document of the grammar that stands for it
-/

set_option linter.unusedSectionVars false
set_option linter.unusedSimpArgs false

namespace Verif

variable {lib : ParseLib} {P : PrintLib}

/-! ## Objects -/

theorem mem_present {l : List (String × Option Json)} {e : String × Json} : e ∈ present l ↔ (e.1, some e.2) ∈ l := by
  simp only [present, List.mem_filterMap, Option.map_eq_some_iff]
  constructor
  · rintro ⟨⟨k, v⟩, h, j, hj, rfl⟩
    simp only at hj
    subst hj
    exact h
  · intro h
    exact ⟨_, h, _, rfl, rfl⟩

theorem present_keys (l : List (String × Option Json)) : ((present l).map Prod.fst).Sublist (l.map Prod.fst) := by
  induction l with
  | nil => exact .slnil
  | cons e l ih =>
    obtain ⟨k, v⟩ := e
    cases v with
    | none => simp only [present, List.filterMap_cons, Option.map_none, List.map_cons]; exact .cons _ ih
    | some j => simp only [present, List.filterMap_cons, Option.map_some, List.map_cons]; exact .cons_cons _ ih

theorem present_members {l : List (String × Option Json)} {ms : List String} (hn : (l.map Prod.fst).Nodup)
    (hs : l.map Prod.fst ⊆ ms) : Members (present l) ms :=
  ⟨hn.sublist (present_keys l), fun e he => hs (List.mem_map.2 ⟨_, mem_present.1 he, rfl⟩)⟩

theorem present_lookup {l : List (String × Option Json)} (hn : (l.map Prod.fst).Nodup) {k : String} {v : Option Json}
    (h : (k, v) ∈ l) : (present l).lookup k = v := by
  have hn' : ((present l).map Prod.fst).Nodup := hn.sublist (present_keys l)
  cases v with
  | some j =>
    have hm : (k, j) ∈ present l := mem_present.2 h
    clear h hn
    generalize present l = o at hm hn'
    induction o with
    | nil => cases hm
    | cons e o ih =>
      obtain ⟨k', j'⟩ := e
      simp only [List.map_cons, List.nodup_cons] at hn'
      rw [List.lookup_cons]
      rcases List.mem_cons.1 hm with h | h
      · simp only [Prod.mk.injEq] at h
        obtain ⟨rfl, rfl⟩ := h
        simp
      · have hk : k ≠ k' := fun hc => hn'.1 (hc ▸ List.mem_map.2 ⟨_, h, rfl⟩)
        simp only [beq_eq_false_iff_ne.2 hk]
        exact ih h hn'.2
  | none =>
    cases hl : (present l).lookup k with
    | none => rfl
    | some j =>
      have hm := mem_present.1 (mem_of_lookup_obj hl)
      have := List.inj_on_of_nodup_map hn h hm rfl
      simp at this

/-! ## Leaves -/

theorem opt_of_map {α : Type} {D : Json → α → Prop} {p : α → Json} {a : Option α} (h : ∀ x, a = some x → D (p x) x) :
    OptDoc D (a.map p) a := by
  cases a with
  | none => trivial
  | some x => exact h x rfl

theorem default_skip {α : Type} {D : Json → α → Prop} {d : α} {c : Bool} {j : Json} {a : α} (hc : c = true → a = d)
    (h : c = false → D j a) : DefaultDoc D d (skipIf c j) a := by
  cases c with
  | true => exact hc rfl
  | false => exact h rfl

theorem regExp_doc {e : Option RegExp} (h : regExpFaithful e) (r : RegExp) (hr : e = some r) : RegExpDoc r.print r :=
  ⟨_, rfl, by rw [RegExp.display_chars (h r hr).1]; exact RegExp.parse_display_canonical (h r hr).1 (h r hr).2⟩

theorem pattern_doc {p : SPattern} (h : p.Faithful lib) : PatternDoc lib p.print p := by
  cases p with
  | var x => exact .var h (by simp [String.toList_append])
  | iri i => exact .iri h.2 h.1
  | literal v ty =>
    cases ty with
    | iri i =>
      have hi : (i == xsdString) = false := beq_eq_false_iff_ne.2 h.2
      have hn : ([("value", some (Json.string v)), ("type", some (Json.string i))] : List _).map Prod.fst |>.Nodup := by simp
      refine .typed (v := v) (ty := i) ?_ ?_ h.1 ?_
      · simp only [SLitType.print, skipIf, hi]
        exact present_members hn (by simp)
      · simp only [SLitType.print, skipIf, hi]
        exact present_lookup hn (by simp)
      · simp only [SLitType.print, skipIf, hi]
        exact present_lookup hn (by simp)
    | language tag =>
      have hn : ([("value", some (Json.string v)), ("language", some (Json.string tag))] : List _).map Prod.fst |>.Nodup := by simp
      exact .language (present_members hn (by simp [SLitType.print])) (present_lookup hn (by simp [SLitType.print])) h
        (present_lookup hn (by simp [SLitType.print]))

theorem pattern_notArray (p : SPattern) : ∀ js, p.print ≠ .array js := by
  intro js; cases p <;> simp [SPattern.print]

theorem forall₂_map {α : Type} {D : Json → α → Prop} {p : α → Json} {l : List α} (h : ∀ a ∈ l, D (p a) a) :
    List.Forall₂ D (l.map p) l := by
  induction l with
  | nil => exact .nil
  | cons a l ih => exact .cons (h a (List.mem_cons_self ..)) (ih fun a ha => h a (List.mem_cons_of_mem _ ha))

theorem quad_doc {q : Quad SPattern} (hs : q.s.Faithful lib) (hp : q.p.Faithful lib) (ho : q.o.Faithful lib)
    (hg : optFaithful lib q.g) : QuadDoc lib (SQuad.print q) q := by
  obtain ⟨s, p, o, g⟩ := q
  cases g with
  | none => exact .three (pattern_doc hs) (pattern_doc hp) (pattern_doc ho)
  | some g => exact .four (pattern_doc hs) (pattern_doc hp) (pattern_doc ho) (pattern_doc (hg g rfl))

theorem dataset_doc {d : List (Quad SPattern)} (h : datasetFaithful lib d) : DatasetDoc lib (printDataset d) d :=
  ⟨_, rfl, forall₂_map fun q hq => quad_doc (h q hq).1 (h q hq).2.1 (h q hq).2.2.1 (h q hq).2.2.2⟩

theorem oneOrMany_doc {α : Type} {D : Json → α → Prop} {p : α → Json} {i : OneOrMany α} (hn : ∀ a js, p a ≠ .array js)
    (h : ∀ a ∈ i.asSlice, D (p a) a) : OneOrManyDoc D (i.print p) i := by
  cases i with
  | one a => exact ⟨hn a, h a (by simp [OneOrMany.asSlice])⟩
  | many l => exact ⟨_, rfl, forall₂_map h⟩

theorem names_doc (i : OneOrMany String) : OneOrManyDoc StringDoc (i.print .string) i :=
  oneOrMany_doc (by simp) fun _ _ => rfl

theorem isName_eq {x : String} {i : OneOrMany String} (hi : i ≠ .many [x]) (h : i.isName x = true) : i = .one x := by
  cases i with
  | one a => simp [OneOrMany.isName, OneOrMany.asSlice] at h; rw [h]
  | many l => simp [OneOrMany.isName, OneOrMany.asSlice] at h; exact absurd (by rw [h]) hi

theorem isVar_eq {x : String} {i : OneOrMany SPattern} (hi : i ≠ .many [.var x]) (h : i.isVar x = true) : i = .one (.var x) := by
  cases i with
  | one a => simp [OneOrMany.isVar, OneOrMany.asSlice] at h; rw [h]
  | many l => simp [OneOrMany.isVar, OneOrMany.asSlice] at h; exact absurd (by rw [h]) hi

theorem isEmpty_eq {i : OneOrMany String} (h : i.isEmpty = true) : i = .many [] := by
  cases i with
  | one a => cases h
  | many l => simp [OneOrMany.isEmpty] at h; rw [h]

theorem i64_doc {n : Int} (h : -2 ^ 63 ≤ n ∧ n < 2 ^ 63) : I64Doc n.repr.toList n := by
  have hd : ∀ m : Nat, m.repr.toList = Nat.toDigits 10 m := fun m => by simp [Nat.repr]
  have hc : ∀ m : Nat, ∀ c ∈ Nat.toDigits 10 m, c.isDigit = true := fun m c hc => Nat.isDigit_of_mem_toDigits (by decide) (by decide) hc
  cases n with
  | ofNat m =>
    refine ⟨false, Nat.toDigits 10 m, .inl ⟨by simp [Int.repr, hd], rfl⟩, Nat.toDigits_ne_nil, hc m, ?_, h.1, h.2⟩
    rw [Nat.ofDigitChars_toDigits (by decide) (by decide)]; rfl
  | negSucc m =>
    refine ⟨true, Nat.toDigits 10 (m + 1), .inr (.inr ⟨?_, rfl⟩), Nat.toDigits_ne_nil, hc _, ?_, h.1, h.2⟩
    · simp [Int.repr, hd, String.toList_append]
    · rw [Nat.ofDigitChars_toDigits (by decide) (by decide)]; rfl

theorem resource_doc {r : SResource} (h : r.Faithful lib) : ResourceDoc lib r.print r := by
  cases r with
  | boolean b => exact .boolean b
  | number n => exact .number (i64_doc h)
  | string s => exact .string s
  | typed v ty =>
    exact .typed ⟨by simp, by simp⟩ rfl h rfl

/-! ## Headers and kinds -/

theorem header_doc {h : LayoutHeader} (hh : h.Faithful lib) {o : JsonObject}
    (hl : ∀ k v, (k, v) ∈ h.print → o.lookup k = v) : HeaderDoc lib o h where
  base := by
    rw [hl "base" _ (by simp [LayoutHeader.print]; rfl)]
    exact opt_of_map fun i hi => ⟨rfl, hh.base i hi⟩
  prefixes := by
    rw [hl "prefixes" _ (by simp [LayoutHeader.print]; rfl)]
    refine default_skip (fun hc => by simpa using hc) fun _ => ⟨_, h.prefixes, rfl, ?_, hh.prefixOrder.symm⟩
    rw [List.forall₂_map_left_iff, List.forall₂_same]
    exact fun e he => ⟨rfl, rfl, hh.prefixes e he⟩
  id := by
    rw [hl "id" _ (by simp [LayoutHeader.print]; rfl)]
    exact opt_of_map fun i hi => ⟨rfl, hh.id i hi⟩
  input := by
    rw [hl "input" _ (by simp [LayoutHeader.print]; rfl)]
    exact default_skip (isName_eq hh.input) fun _ => names_doc _
  intro := by
    rw [hl "intro" _ (by simp [LayoutHeader.print]; rfl)]
    exact default_skip isEmpty_eq fun _ => names_doc _
  dataset := by
    rw [hl "dataset" _ (by simp [LayoutHeader.print]; rfl)]
    exact default_skip (fun hc => by simpa using hc) fun _ => dataset_doc hh.dataset
  extra := by
    rw [hl "extra" _ (by simp [LayoutHeader.print]; rfl)]
    refine default_skip (fun hc => by simpa using hc) fun _ => ⟨_, h.extra, rfl, ?_, hh.extraOrder.symm⟩
    rw [List.forall₂_map_left_iff, List.forall₂_same]
    exact fun e he => ⟨⟨rfl, (hh.extra e he).1⟩, resource_doc (hh.extra e he).2⟩

/-- The object printed by `printKind`. -/
abbrev kindObject (ty : String) (h : LayoutHeader) (members : List (String × Option Json)) : JsonObject :=
  present (("type", some (.string ty)) :: (h.print ++ members))

theorem header_keys (h : LayoutHeader) : h.print.map Prod.fst = ["base", "prefixes", "id", "input", "intro", "dataset", "extra"] := rfl

theorem kind_doc {ty : String} {h : LayoutHeader} {members : List (String × Option Json)} {ms : List String}
    (hh : h.Faithful lib) (hm : members.map Prod.fst = ms)
    (hn : ("type" :: (["base", "prefixes", "id", "input", "intro", "dataset", "extra"] ++ ms)).Nodup) :
    KindDoc lib (kindObject ty h members) ty ms h ∧ ∀ k v, (k, v) ∈ members → (kindObject ty h members).lookup k = v := by
  have hn' : ((("type", some (.string ty)) :: (h.print ++ members)).map Prod.fst).Nodup := by
    simp only [List.map_cons, List.map_append, header_keys, hm]; exact hn
  refine ⟨⟨present_members hn' ?_, present_lookup hn' (List.mem_cons_self ..), header_doc hh fun k v hk =>
    present_lookup hn' (List.mem_cons_of_mem _ (List.mem_append_left _ hk))⟩, fun k v hk =>
    present_lookup hn' (List.mem_cons_of_mem _ (List.mem_append_right _ hk))⟩
  simp only [List.map_cons, List.map_append, header_keys, hm]
  intro k hk
  simp [headerMembers] at hk ⊢
  tauto

theorem resource_opt {r : Option SPattern} (h : resourceFaithful lib r) : OptDoc (PatternDoc lib) (some (printOption r)) r := by
  obtain ⟨p, rfl, hp⟩ := h
  exact pattern_doc hp

theorem datatype_opt {dt : Option CompactIri} (h : datatypeFaithful lib dt) : OptDoc (IriDoc lib) (dt.map .string) dt :=
  opt_of_map fun i hi => ⟨rfl, h i hi⟩

theorem optPattern_doc {p : Option SPattern} (h : optFaithful lib p) : OptDoc (PatternDoc lib) (p.map SPattern.print) p :=
  opt_of_map fun q hq => pattern_doc (h q hq)

mutual
theorem print_layout (l : SLayout) (h : l.Faithful P lib) (hb : ∀ b, l ≠ .bool b) :
    ∃ o, l.print P = .object o ∧ LayoutObj lib o l := by
  match l with
  | .unit hd k =>
    obtain ⟨hh, hc⟩ := h
    obtain ⟨hk, hl⟩ := kind_doc (ty := "unit") (members := [("const", skipIf (k == .literal .unit) (P.const k))]) hh rfl (by simp)
    refine ⟨_, rfl, .unit hk ?_⟩
    rw [hl _ _ (List.mem_singleton.2 rfl)]
    exact default_skip (fun h => by simpa using h) fun h => hc (by simpa using h)
  | .boolean hd r dt =>
    obtain ⟨hh, hr, hdt⟩ := h
    obtain ⟨hk, hl⟩ := kind_doc (ty := "boolean") (members := [("resource", some (printOption r)), ("datatype", dt.map .string)]) hh rfl (by simp)
    refine ⟨_, rfl, .boolean hk ?_ ?_⟩
    · rw [hl "resource" _ (by simp; rfl)]; exact resource_opt hr
    · rw [hl "datatype" _ (by simp; rfl)]; exact datatype_opt hdt
  | .number hd r dt =>
    obtain ⟨hh, hr, hdt⟩ := h
    obtain ⟨hk, hl⟩ := kind_doc (ty := "number") (members := [("resource", some (printOption r)), ("datatype", some (.string dt))]) hh rfl (by simp)
    refine ⟨_, rfl, .number hk ?_ ?_⟩
    · rw [hl "resource" _ (by simp; rfl)]; exact resource_opt hr
    · rw [hl "datatype" _ (by simp; rfl)]; exact ⟨rfl, hdt⟩
  | .byteString hd r dt =>
    obtain ⟨hh, hr, hdt⟩ := h
    obtain ⟨hk, hl⟩ := kind_doc (ty := "bytes") (members := [("resource", some (printOption r)), ("datatype", some (.string dt))]) hh rfl (by simp)
    refine ⟨_, rfl, .byteString hk ?_ ?_⟩
    · rw [hl "resource" _ (by simp; rfl)]; exact resource_opt hr
    · rw [hl "datatype" _ (by simp; rfl)]; exact ⟨rfl, hdt⟩
  | .textString hd e r dt =>
    obtain ⟨hh, he, hr, hdt⟩ := h
    obtain ⟨hk, hl⟩ := kind_doc (ty := "string") (members := [("pattern", e.map RegExp.print), ("resource", some (printOption r)), ("datatype", dt.map .string)]) hh rfl (by simp)
    refine ⟨_, rfl, .textString hk ?_ ?_ ?_⟩
    · rw [hl "pattern" _ (by simp; rfl)]; exact opt_of_map (regExp_doc he)
    · rw [hl "resource" _ (by simp; rfl)]; exact resource_opt hr
    · rw [hl "datatype" _ (by simp; rfl)]; exact datatype_opt hdt
  | .id hd e r =>
    obtain ⟨hh, he, hr⟩ := h
    obtain ⟨hk, hl⟩ := kind_doc (ty := "id") (members := [("pattern", e.map RegExp.print), ("resource", some (printOption r))]) hh rfl (by simp)
    refine ⟨_, rfl, .id hk ?_ ?_⟩
    · rw [hl "pattern" _ (by simp; rfl)]; exact opt_of_map (regExp_doc he)
    · rw [hl "resource" _ (by simp; rfl)]; exact resource_opt hr
  | .product hd fs =>
    obtain ⟨hh, ho, hf⟩ := h
    obtain ⟨hk, hl⟩ := kind_doc (ty := "record") (members := [("fields", skipIf fs.isEmpty (.object (printFields P fs)))]) hh rfl (by simp)
    refine ⟨_, rfl, .record hk ?_⟩
    rw [hl _ _ (List.mem_singleton.2 rfl)]
    cases hc : fs.isEmpty with
    | true => simp only [List.isEmpty_iff] at hc; subst hc; exact .absent
    | false =>
      have := FieldsDoc.present (print_fields fs hf)
      rw [ho] at this
      exact this
  | .sum hd vs =>
    obtain ⟨hh, ho, hf⟩ := h
    obtain ⟨hk, hl⟩ := kind_doc (ty := "sum") (members := [("variants", skipIf vs.isEmpty (.object (printVariants P vs)))]) hh rfl (by simp)
    refine ⟨_, rfl, .sum hk ?_⟩
    rw [hl _ _ (List.mem_singleton.2 rfl)]
    cases hc : vs.isEmpty with
    | true => simp only [List.isEmpty_iff] at hc; subst hc; exact .absent
    | false =>
      have := VariantsDoc.present (print_variants vs hf)
      rw [ho] at this
      exact this
  | .ordered hd n p q =>
    obtain ⟨hh, hn, hp, hq⟩ := h
    obtain ⟨hk, hl⟩ := kind_doc (ty := "list") (members := [("node", some (n.print P)), ("head", skipIf (p == .var "self") p.print),
      ("tail", skipIf (q == .iri rdfNil) q.print)]) hh rfl (by simp)
    refine ⟨_, rfl, .list hk (hl "node" _ (by simp)) (print_node n hn) ?_ ?_⟩
    · rw [hl "head" _ (by simp; rfl)]; exact default_skip (fun h => by simpa using h) fun _ => pattern_doc hp
    · rw [hl "tail" _ (by simp; rfl)]; exact default_skip (fun h => by simpa [rdfNil] using h) fun _ => pattern_doc hq
  | .unordered hd i =>
    obtain ⟨hh, hi⟩ := h
    obtain ⟨hk, hl⟩ := kind_doc (ty := "set") (members := [("item", some (i.print P))]) hh rfl (by simp)
    exact ⟨_, rfl, .set hk (hl "item" _ (by simp)) (print_item i hi)⟩
  | .sized hd is =>
    obtain ⟨hh, hi⟩ := h
    obtain ⟨hk, hl⟩ := kind_doc (ty := "tuple") (members := [("items", skipIf is.isEmpty (.array (printItems P is)))]) hh rfl (by simp)
    refine ⟨_, rfl, .tuple hk ?_⟩
    rw [hl _ _ (List.mem_singleton.2 rfl)]
    cases hc : is.isEmpty with
    | true => simp only [List.isEmpty_iff] at hc; subst hc; exact .absent
    | false => exact .present (print_items is hi)
  | .bool b => exact absurd rfl (hb b)
  | .union hd => exact ⟨_, rfl, .union (kind_doc (ty := "union") (members := []) h rfl (by simp)).1⟩
  | .intersection hd => exact ⟨_, rfl, .intersection (kind_doc (ty := "intersection") (members := []) h rfl (by simp)).1⟩

theorem print_ref (r : SLayoutRef) (h : r.Faithful P lib) : RefDoc lib (r.print P) r := by
  match r with
  | .ref i => exact .ref h
  | .layout l =>
    obtain ⟨o, ho, hl⟩ := print_layout l h.2 h.1
    simp only [SLayoutRef.print, ho]
    exact .layout hl

theorem print_format (dflt : String) (f : SFormat) (h : f.Faithful P lib dflt) : FormatDoc lib dflt (f.print P dflt) f := by
  match f with
  | .layout (.ref i) => exact .ref h
  | .layout (.layout l) =>
    obtain ⟨o, ho, hl⟩ := print_layout l h.2 h.1
    simp only [SFormat.print, SLayoutRef.print, ho]
    exact .layout hl
  | .format r input graph =>
    obtain ⟨hr, hi, hp, hg, hg'⟩ := h
    have hn : ([("layout", some (r.print P)), ("input", skipIf (input.isVar dflt) (input.print SPattern.print)),
       ("graph", graph.map printOption)].map Prod.fst).Nodup := by simp
    refine .format (present_members hn (by simp)) (present_lookup hn (by simp)) (print_ref r hr) ?_ ?_
    · rw [present_lookup (v := skipIf (input.isVar dflt) (input.print SPattern.print)) hn (by simp)]
      exact default_skip (isVar_eq hi) fun _ => oneOrMany_doc pattern_notArray fun p hp' => pattern_doc (hp p hp')
    · rw [present_lookup (v := graph.map printOption) hn (by simp)]
      match graph, hg, hg' with
      | none, _, _ => rfl
      | some none, hg, _ => exact absurd rfl hg
      | some (some g), _, hg' => exact .pattern (pattern_doc (hg' g rfl))

theorem print_field (f : SField) (h : f.Faithful P lib) : FieldDoc lib (f.print P) f := by
  match f with
  | .mk intro v ds p req =>
    obtain ⟨hi, hv, hd, hp⟩ := h
    have hn : ([("intro", skipIf (intro.isName "value") (intro.print .string)), ("value", some (v.print P "value")),
       ("dataset", skipIf ds.isEmpty (printDataset ds)), ("property", p.map SPattern.print),
       ("required", skipIf (!req) (.boolean req))].map Prod.fst).Nodup := by simp
    refine .mk (present_members hn (by simp)) ?_ (present_lookup hn (by simp)) (print_format "value" v hv) ?_ ?_ ?_
    · rw [present_lookup (v := skipIf (intro.isName "value") (intro.print .string)) hn (by simp)]
      exact default_skip (isName_eq hi) fun _ => names_doc _
    · rw [present_lookup (v := skipIf ds.isEmpty (printDataset ds)) hn (by simp)]
      exact default_skip (fun hc => by simpa using hc) fun _ => dataset_doc hd
    · rw [present_lookup (v := p.map SPattern.print) hn (by simp)]
      exact optPattern_doc hp
    · rw [present_lookup (v := skipIf (!req) (.boolean req)) hn (by simp)]
      exact default_skip (fun hc => by simpa using hc) fun _ => rfl

theorem print_fields (fs : List (Value × SField)) (h : fieldsFaithful P lib fs) : FieldEntries lib (printFields P fs) fs := by
  match fs with
  | [] => exact .nil
  | (k, f) :: fs =>
    obtain ⟨hk, hf, hfs⟩ := h
    have := FieldEntries.cons (k := P.key k) (print_field f hf) (print_fields fs hfs)
    rw [← hk] at this
    exact this

theorem print_variant (v : SVariant) (h : v.Faithful P lib) : VariantDoc lib (v.print P) v := by
  match v with
  | .mk intro v ds =>
    obtain ⟨hv, hd⟩ := h
    have hn : ([("intro", skipIf intro.isEmpty (intro.print .string)), ("value", some (v.print P "self")),
       ("dataset", skipIf ds.isEmpty (printDataset ds))].map Prod.fst).Nodup := by simp
    refine .mk (present_members hn (by simp)) ?_ (present_lookup hn (by simp)) (print_format "self" v hv) ?_
    · rw [present_lookup (v := skipIf intro.isEmpty (intro.print .string)) hn (by simp)]
      exact default_skip isEmpty_eq fun _ => names_doc _
    · rw [present_lookup (v := skipIf ds.isEmpty (printDataset ds)) hn (by simp)]
      exact default_skip (fun hc => by simpa using hc) fun _ => dataset_doc hd

theorem print_variants (vs : List (String × SVariant)) (h : variantsFaithful P lib vs) :
    VariantEntries lib (printVariants P vs) vs := by
  match vs with
  | [] => exact .nil
  | (k, v) :: vs => exact .cons (print_variant v h.1) (print_variants vs h.2)

theorem print_item (i : SItem) (h : i.Faithful P lib) : ItemDoc lib (i.print P) i := by
  match i with
  | .mk intro v ds p =>
    obtain ⟨hi, hv, hd, hp⟩ := h
    have hn : ([("intro", skipIf (intro.isName "value") (intro.print .string)), ("value", some (v.print P "value")),
       ("dataset", skipIf ds.isEmpty (printDataset ds)), ("property", p.map SPattern.print)].map Prod.fst).Nodup := by simp
    refine .mk (present_members hn (by simp)) ?_ (present_lookup hn (by simp)) (print_format "value" v hv) ?_ ?_
    · rw [present_lookup (v := skipIf (intro.isName "value") (intro.print .string)) hn (by simp)]
      exact default_skip (isName_eq hi) fun _ => names_doc _
    · rw [present_lookup (v := skipIf ds.isEmpty (printDataset ds)) hn (by simp)]
      exact default_skip (fun hc => by simpa using hc) fun _ => dataset_doc hd
    · rw [present_lookup (v := p.map SPattern.print) hn (by simp)]
      exact optPattern_doc hp

theorem print_items (is : List SItem) (h : itemsFaithful P lib is) : ItemList lib (printItems P is) is := by
  match is with
  | [] => exact .nil
  | i :: is => exact .cons (print_item i h.1) (print_items is h.2)

theorem print_node (n : SNode) (h : n.Faithful P lib) : NodeDoc lib (n.print P) n := by
  match n with
  | .layout (.ref i) => exact .ref h
  | .layout (.layout l) =>
    obtain ⟨o, ho, hl⟩ := print_layout l h.2 h.1
    simp only [SNode.print, SLayoutRef.print, ho]
    exact .layout hl
  | .node head rest intro v ds =>
    obtain ⟨hi, hv, hd⟩ := h
    have hn : ([("head", skipIf (head == "head") (.string head)), ("rest", skipIf (rest == "rest") (.string rest)),
       ("intro", skipIf (intro.isName "value") (intro.print .string)), ("value", some (v.print P "value")),
       ("dataset", ds.map printDataset)].map Prod.fst).Nodup := by simp
    refine .node (present_members hn (by simp)) ?_ ?_ ?_ (present_lookup hn (by simp)) (print_format "value" v hv) ?_
    · rw [present_lookup (v := skipIf (head == "head") (.string head)) hn (by simp)]
      exact default_skip (fun hc => by simpa using hc) fun _ => rfl
    · rw [present_lookup (v := skipIf (rest == "rest") (.string rest)) hn (by simp)]
      exact default_skip (fun hc => by simpa using hc) fun _ => rfl
    · rw [present_lookup (v := skipIf (intro.isName "value") (intro.print .string)) hn (by simp)]
      exact default_skip (isName_eq hi) fun _ => names_doc _
    · rw [present_lookup (v := ds.map printDataset) hn (by simp)]
      exact opt_of_map fun d hd' => dataset_doc (hd d hd')
end

theorem print_doc (l : SLayout) (h : l.Faithful P lib) : LayoutDoc lib (l.print P) l := by
  cases l with
  | bool b => exact .bool b
  | _ =>
    obtain ⟨o, ho, hl⟩ := print_layout _ h (by simp)
    rw [ho]
    exact .object hl

end Verif
