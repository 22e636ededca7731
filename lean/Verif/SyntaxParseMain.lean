import Verif.SyntaxParseLemmas

/-!
# The parser of layout definitions follows the grammar: layouts
-/

set_option linter.unusedSectionVars false
set_option linter.unusedSimpArgs false

namespace Verif

variable {lib : ParseLib}

theorem reads_header {o : JsonObject} {ks : List String}
    (hk : ∀ k ∈ ["base", "prefixes", "id", "input", "intro", "dataset", "extra"], k ∉ ks) :
    Reads o ks (parseHeader lib o) ("extra" :: "dataset" :: "intro" :: "input" :: "id" :: "prefixes" :: "base" :: ks)
      (HeaderDoc lib o) := by
  simp only [List.forall_mem_cons, List.not_mem_nil, false_imp_iff, implies_true, and_true] at hk
  obtain ⟨k1, k2, k3, k4, k5, k6, k7⟩ := hk
  have sub : ∀ (k : String) (l m : List String), l ⊆ m → l ⊆ k :: m := fun k l m h x hx => List.mem_cons_of_mem _ (h hx)
  refine (Reads.bind (reads_getEntry (D := IriDoc lib) k1 fun j _ a => parseIri_ok) (fun base =>
    Reads.bind (reads_getEntry (D := MapDoc strLe Eq (IriDoc lib)) (by simp [k2]) fun j _ a =>
      parseMap_ok (by simp) fun _ _ _ _ _ => parseIri_ok) (fun prefixes =>
    Reads.bind (reads_getEntry (D := IriDoc lib) (by simp [k3]) fun j _ a => parseIri_ok) (fun id =>
    Reads.bind (reads_getEntry (D := OneOrManyDoc StringDoc) (by simp [k4]) fun j _ a =>
      parseOneOrMany_ok fun _ _ => parseString_ok) (fun input =>
    Reads.bind (reads_getEntry (D := OneOrManyDoc StringDoc) (by simp [k5]) fun j _ a =>
      parseOneOrMany_ok fun _ _ => parseString_ok) (fun intro =>
    Reads.bind (reads_getEntry (D := DatasetDoc lib) (by simp [k6]) fun j _ a => parseDataset_ok) (fun dataset =>
    Reads.bind (reads_getEntry (D := MapDoc lib.leIri (fun k i => k = i ∧ lib.isIriRef i = true) (ResourceDoc lib))
      (by simp [k7]) fun j _ a => parseMap_ok (fun _ _ => parseIriString_ok) fun _ _ _ _ _ => parseResource_ok) (fun extra =>
    reads_pure _ _ _) ?_) ?_) ?_) ?_) ?_) ?_) ?_).congr fun h => ?_
  all_goals first
    | exact fun _ h => h
    | exact fun _ h => by simp only [List.mem_cons] at h ⊢; tauto
    | skip
  constructor
  · rintro ⟨base, h1, prefixes, h2, id, h3, input, h4, intro, h5, dataset, h6, extra, h7, rfl⟩
    exact ⟨h1, default_getD.1 ⟨_, h2, rfl⟩, h3, default_getD.1 ⟨_, h4, rfl⟩, default_getD.1 ⟨_, h5, rfl⟩,
      default_getD.1 ⟨_, h6, rfl⟩, default_getD.1 ⟨_, h7, rfl⟩⟩
  · rintro ⟨h1, h2, h3, h4, h5, h6, h7⟩
    obtain ⟨x2, h2, e2⟩ := default_getD.2 h2
    obtain ⟨x4, h4, e4⟩ := default_getD.2 h4
    obtain ⟨x5, h5, e5⟩ := default_getD.2 h5
    obtain ⟨x6, h6, e6⟩ := default_getD.2 h6
    obtain ⟨x7, h7, e7⟩ := default_getD.2 h7
    refine ⟨_, h1, _, h2, _, h3, _, h4, _, h5, _, h6, _, h7, ?_⟩
    cases h
    simp only at e2 e4 e5 e6 e7 ⊢
    rw [e2, e4, e5, e6, e7]

/-- The header members together with `type`. -/
abbrev headerRead : List String := ["extra", "dataset", "intro", "input", "id", "prefixes", "base", "type"]

theorem reads_kind {o : JsonObject} {ty : String} :
    Reads o [] ((checkType o ty).bind fun _ => parseHeader lib o) headerRead
      (fun h => o.lookup "type" = some (.string ty) ∧ HeaderDoc lib o h) :=
  (Reads.bind (Q := fun _ h => HeaderDoc lib o h) reads_checkType (fun _ => reads_header (by decide))
    (fun _ h => by simp at h; subst h; decide)).congr fun h =>
      ⟨fun ⟨_, a, b⟩ => ⟨a, b⟩, fun ⟨a, b⟩ => ⟨(), a, b⟩⟩

theorem ObjParser.bind_assoc {α β γ : Type} (m : ObjParser α) (f : α → ObjParser β) (g : β → ObjParser γ) :
    (m.bind f).bind g = m.bind fun a => (f a).bind g := by
  funext u
  simp only [ObjParser.bind]
  cases m u <;> rfl

/-- A layout of a given kind: the header and the members read by `rest`. -/
theorem runObj_kind {o : JsonObject} {ty : String} {members : List String} {rest : LayoutHeader → ObjParser SLayout}
    {ks : List String} {Q : LayoutHeader → SLayout → Prop}
    (hr : ∀ h, Reads o headerRead (rest h) ks (Q h)) (hs : headerRead ⊆ ks)
    (hm : ∀ k, k ∈ ks ↔ k ∈ members ++ headerMembers) (l : SLayout) :
    runObj o ((checkType o ty).bind fun _ => (parseHeader lib o).bind rest) = .ok l ↔
      ∃ h, KindDoc lib o ty members h ∧ Q h l := by
  rw [← ObjParser.bind_assoc, runObj_ok (Reads.bind reads_kind hr hs)]
  rw [Members.congr hm]
  constructor
  · rintro ⟨h1, h, ⟨h2, h3⟩, h4⟩; exact ⟨h, ⟨h1, h2, h3⟩, h4⟩
  · rintro ⟨h, ⟨h1, h2, h3⟩, h4⟩; exact ⟨h1, h, ⟨h2, h3⟩, h4⟩

theorem reads_one {α β : Type} {o : JsonObject} {ks : List String} {m : ObjParser α} {k : String} {P : α → Prop} {f : α → β}
    (h : Reads o ks m (k :: ks) P) :
    Reads o ks (m.bind fun a => .pure (f a)) (k :: ks) (fun b => ∃ a, P a ∧ b = f a) :=
  Reads.bind h (fun _ => reads_pure _ _ _) fun _ h => h

theorem parseUnit_ok {o : JsonObject} {l : SLayout} : runObj o (parseUnit lib o) = .ok l ↔
    ∃ h k, KindDoc lib o "unit" ["const"] h ∧ DefaultDoc ConstDoc (.literal .unit) (o.lookup "const") k ∧ l = .unit h k := by
  refine (runObj_kind (members := ["const"]) (ks := "const" :: headerRead) (fun h => reads_one
    (f := fun k => SLayout.unit h (k.getD (.literal .unit)))
    (reads_getEntry (D := ConstDoc) (by decide) fun j _ a => parseConst_ok)) (by decide) ?_ l).trans ?_
  · intro k; simp [headerMembers]; tauto
  · constructor
    · rintro ⟨h, hk, x, hx, rfl⟩; exact ⟨h, _, hk, default_getD.1 ⟨x, hx, rfl⟩, rfl⟩
    · rintro ⟨h, k, hk, hc, rfl⟩
      obtain ⟨x, hx, rfl⟩ := default_getD.2 hc
      exact ⟨h, hk, x, hx, rfl⟩

theorem parseBooleanLayout_ok {o : JsonObject} {l : SLayout} : runObj o (parseBooleanLayout lib o) = .ok l ↔
    ∃ h r dt, KindDoc lib o "boolean" ["resource", "datatype"] h ∧ OptDoc (PatternDoc lib) (o.lookup "resource") r ∧
      OptDoc (IriDoc lib) (o.lookup "datatype") dt ∧ l = .boolean h r dt := by
  refine (runObj_kind (members := ["resource", "datatype"]) (ks := "datatype" :: "resource" :: headerRead) (fun h =>
    Reads.bind (reads_getEntry (D := PatternDoc lib) (by decide) fun j _ a => parsePattern_ok) (fun r => reads_one
      (f := fun dt => SLayout.boolean h r dt)
      (reads_getEntry (D := IriDoc lib) (by decide) fun j _ a => parseIri_ok)) (by decide)) (by decide) ?_ l).trans ?_
  · intro k; simp [headerMembers]; tauto
  · constructor
    · rintro ⟨h, hk, r, hr, dt, hd, rfl⟩; exact ⟨h, r, dt, hk, hr, hd, rfl⟩
    · rintro ⟨h, r, dt, hk, hr, hd, rfl⟩; exact ⟨h, hk, r, hr, dt, hd, rfl⟩

theorem parseNumber_ok {o : JsonObject} {l : SLayout} : runObj o (parseNumber lib o) = .ok l ↔
    ∃ h r dt, KindDoc lib o "number" ["resource", "datatype"] h ∧ OptDoc (PatternDoc lib) (o.lookup "resource") r ∧
      OptDoc (IriDoc lib) (o.lookup "datatype") (some dt) ∧ l = .number h r dt := by
  refine (runObj_kind (members := ["resource", "datatype"]) (ks := "datatype" :: "resource" :: headerRead) (fun h =>
    Reads.bind (reads_getEntry (D := PatternDoc lib) (by decide) fun j _ a => parsePattern_ok) (fun r => reads_one
      (f := fun dt => SLayout.number h r dt)
      (reads_requireEntry (D := IriDoc lib) (by decide) fun j _ a => parseIri_ok)) (by decide)) (by decide) ?_ l).trans ?_
  · intro k; simp [headerMembers]; tauto
  · constructor
    · rintro ⟨h, hk, r, hr, dt, hd, rfl⟩; exact ⟨h, r, dt, hk, hr, hd, rfl⟩
    · rintro ⟨h, r, dt, hk, hr, hd, rfl⟩; exact ⟨h, hk, r, hr, dt, hd, rfl⟩

theorem parseByteString_ok {o : JsonObject} {l : SLayout} : runObj o (parseByteString lib o) = .ok l ↔
    ∃ h r dt, KindDoc lib o "bytes" ["resource", "datatype"] h ∧ OptDoc (PatternDoc lib) (o.lookup "resource") r ∧
      OptDoc (IriDoc lib) (o.lookup "datatype") (some dt) ∧ l = .byteString h r dt := by
  refine (runObj_kind (members := ["resource", "datatype"]) (ks := "datatype" :: "resource" :: headerRead) (fun h =>
    Reads.bind (reads_getEntry (D := PatternDoc lib) (by decide) fun j _ a => parsePattern_ok) (fun r => reads_one
      (f := fun dt => SLayout.byteString h r dt)
      (reads_requireEntry (D := IriDoc lib) (by decide) fun j _ a => parseIri_ok)) (by decide)) (by decide) ?_ l).trans ?_
  · intro k; simp [headerMembers]; tauto
  · constructor
    · rintro ⟨h, hk, r, hr, dt, hd, rfl⟩; exact ⟨h, r, dt, hk, hr, hd, rfl⟩
    · rintro ⟨h, r, dt, hk, hr, hd, rfl⟩; exact ⟨h, hk, r, hr, dt, hd, rfl⟩

theorem parseTextString_ok {o : JsonObject} {l : SLayout} : runObj o (parseTextString lib o) = .ok l ↔
    ∃ h e r dt, KindDoc lib o "string" ["pattern", "resource", "datatype"] h ∧ OptDoc RegExpDoc (o.lookup "pattern") e ∧
      OptDoc (PatternDoc lib) (o.lookup "resource") r ∧
      OptDoc (IriDoc lib) (o.lookup "datatype") dt ∧ l = .textString h e r dt := by
  refine (runObj_kind (members := ["pattern", "resource", "datatype"])
    (ks := "datatype" :: "resource" :: "pattern" :: headerRead) (fun h =>
    Reads.bind (reads_getEntry (D := RegExpDoc) (by decide) fun j _ a => parseRegExp_ok) (fun e =>
    Reads.bind (reads_getEntry (D := PatternDoc lib) (by decide) fun j _ a => parsePattern_ok) (fun r => reads_one
      (f := fun dt => SLayout.textString h e r dt)
      (reads_getEntry (D := IriDoc lib) (by decide) fun j _ a => parseIri_ok)) (by decide)) (by decide)) (by decide) ?_ l).trans ?_
  · intro k; simp [headerMembers]; tauto
  · constructor
    · rintro ⟨h, hk, e, he, r, hr, dt, hd, rfl⟩; exact ⟨h, e, r, dt, hk, he, hr, hd, rfl⟩
    · rintro ⟨h, e, r, dt, hk, he, hr, hd, rfl⟩; exact ⟨h, hk, e, he, r, hr, dt, hd, rfl⟩

theorem parseIdLayout_ok {o : JsonObject} {l : SLayout} : runObj o (parseIdLayout lib o) = .ok l ↔
    ∃ h e r, KindDoc lib o "id" ["pattern", "resource"] h ∧ OptDoc RegExpDoc (o.lookup "pattern") e ∧
      OptDoc (PatternDoc lib) (o.lookup "resource") r ∧ l = .id h e r := by
  refine (runObj_kind (members := ["pattern", "resource"])
    (ks := "resource" :: "pattern" :: headerRead) (fun h =>
    Reads.bind (reads_getEntry (D := RegExpDoc) (by decide) fun j _ a => parseRegExp_ok) (fun e => reads_one
      (f := fun r => SLayout.id h e r)
      (reads_getEntry (D := PatternDoc lib) (by decide) fun j _ a => parsePattern_ok)) (by decide)) (by decide) ?_ l).trans ?_
  · intro k; simp [headerMembers]; tauto
  · constructor
    · rintro ⟨h, hk, e, he, r, hr, rfl⟩; exact ⟨h, e, r, hk, he, hr, rfl⟩
    · rintro ⟨h, e, r, hk, he, hr, rfl⟩; exact ⟨h, hk, e, he, r, hr, rfl⟩

theorem parseUnion_ok {o : JsonObject} {l : SLayout} : runObj o (parseUnion lib o) = .ok l ↔
    ∃ h, KindDoc lib o "union" [] h ∧ l = .union h := by
  refine runObj_kind (members := []) (ks := headerRead) (fun h => reads_pure _ _ _) (fun _ h => h) ?_ l
  intro k; simp [headerMembers]; tauto

theorem parseIntersection_ok {o : JsonObject} {l : SLayout} : runObj o (parseIntersection lib o) = .ok l ↔
    ∃ h, KindDoc lib o "intersection" [] h ∧ l = .intersection h := by
  refine runObj_kind (members := []) (ks := headerRead) (fun h => reads_pure _ _ _) (fun _ h => h) ?_ l
  intro k; simp [headerMembers]; tauto

/-! ## Nested layouts -/

theorem depth_entries {o : JsonObject} {e : String × Json} (h : e ∈ o) : e.2.depth ≤ Json.depthEntries o := by
  induction o with
  | nil => cases h
  | cons e' o ih =>
    obtain ⟨k, j⟩ := e'
    simp only [Json.depthEntries]
    rcases List.mem_cons.1 h with rfl | h
    · exact Nat.le_max_left _ _
    · exact Nat.le_trans (ih h) (Nat.le_max_right _ _)

theorem depth_list {js : List Json} {j : Json} (h : j ∈ js) : j.depth ≤ Json.depthList js := by
  induction js with
  | nil => cases h
  | cons j' js ih =>
    simp only [Json.depthList]
    rcases List.mem_cons.1 h with rfl | h
    · exact Nat.le_max_left _ _
    · exact Nat.le_trans (ih h) (Nat.le_max_right _ _)

theorem mem_of_lookup_obj {o : JsonObject} {k : String} {j : Json} (h : o.lookup k = some j) : (k, j) ∈ o := by
  induction o with
  | nil => cases h
  | cons e o ih =>
    obtain ⟨k', j'⟩ := e
    simp only [List.lookup_cons] at h
    split at h
    · rename_i hk
      simp only [beq_iff_eq] at hk
      simp only [Option.some.injEq] at h
      subst hk; subst h
      exact List.mem_cons_self ..
    · exact List.mem_cons_of_mem _ (ih h)

theorem depth_lookup {o : JsonObject} {k : String} {j : Json} (h : o.lookup k = some j) : j.depth ≤ Json.depthEntries o :=
  depth_entries (e := (k, j)) (mem_of_lookup_obj h)

/-- The parser of nested layouts is right up to a given depth. -/
def RecOk (lib : ParseLib) (rec : JsonObject → Out SyntaxError SLayout) (d : Nat) : Prop :=
  ∀ o, Json.depthEntries o + 1 ≤ d → ∀ l, rec o = .ok l ↔ LayoutObj lib o l

variable {rec : JsonObject → Out SyntaxError SLayout}

theorem RecOk.mono {d d' : Nat} (h : RecOk lib rec d) (hd : d' ≤ d) : RecOk lib rec d' :=
  fun o ho l => h o (Nat.le_trans ho hd) l

theorem parseRef_ok {d : Nat} (hrec : RecOk lib rec d) {j : Json} (hj : j.depth ≤ d) {r : SLayoutRef} :
    parseRef lib rec j = .ok r ↔ RefDoc lib j r := by
  cases j with
  | string s =>
    simp only [parseRef, Out.bind_eq_ok, parseIriString_ok, Out.ok.injEq]
    constructor
    · rintro ⟨i, ⟨rfl, h⟩, rfl⟩; exact .ref h
    · intro h
      cases h with
      | ref h => exact ⟨_, ⟨rfl, h⟩, rfl⟩
  | object o =>
    simp only [parseRef, Out.bind_eq_ok, Out.ok.injEq, hrec o hj]
    constructor
    · rintro ⟨l, h, rfl⟩; exact .layout h
    · intro h
      cases h with
      | layout h => exact ⟨_, h, rfl⟩
  | _ =>
    simp only [parseRef, reduceCtorEq, false_iff]
    intro h; cases h

theorem optSome {α : Type} {P : Json → α → Prop} {v : Option Json} {a : α} : OptDoc P v (some a) ↔ ∃ j, v = some j ∧ P j a := by
  cases v <;> simp [OptDoc]

theorem LayoutObj.kind {o : JsonObject} {l : SLayout} (h : LayoutObj lib o l) : ∃ ty ms h, KindDoc lib o ty ms h := by
  cases h with
  | unit hk => exact ⟨_, _, _, hk⟩
  | boolean hk => exact ⟨_, _, _, hk⟩
  | number hk => exact ⟨_, _, _, hk⟩
  | byteString hk => exact ⟨_, _, _, hk⟩
  | textString hk => exact ⟨_, _, _, hk⟩
  | id hk => exact ⟨_, _, _, hk⟩
  | record hk => exact ⟨_, _, _, hk⟩
  | sum hk => exact ⟨_, _, _, hk⟩
  | list hk => exact ⟨_, _, _, hk⟩
  | set hk => exact ⟨_, _, _, hk⟩
  | tuple hk => exact ⟨_, _, _, hk⟩
  | union hk => exact ⟨_, _, _, hk⟩
  | intersection hk => exact ⟨_, _, _, hk⟩

theorem LayoutObj.hasType {o : JsonObject} {l : SLayout} (h : LayoutObj lib o l) : "type" ∈ o.map Prod.fst := by
  obtain ⟨ty, ms, h, hk⟩ := h.kind
  exact List.mem_map.2 ⟨_, mem_of_lookup_obj hk.type, rfl⟩

theorem Members.noType {o : JsonObject} {ks : List String} (h : Members o ks) (hk : "type" ∉ ks) : "type" ∉ o.map Prod.fst := by
  intro hc
  obtain ⟨e, he, hc⟩ := List.mem_map.1 hc
  exact hk (hc ▸ h.2 e he)

theorem parseFormatObject_ok {d : Nat} (hrec : RecOk lib rec d) {dflt : String} {o : JsonObject}
    (ho : Json.depthEntries o ≤ d) {f : SFormat} : parseFormatObject lib rec dflt o = .ok f ↔
      ∃ j r input graph, Members o ["layout", "input", "graph"] ∧ o.lookup "layout" = some j ∧ RefDoc lib j r ∧
        DefaultDoc (OneOrManyDoc (PatternDoc lib)) (.one (.var dflt)) (o.lookup "input") input ∧
        DefaultDoc (GraphDoc lib) none (o.lookup "graph") graph ∧ f = .format r input graph := by
  unfold parseFormatObject
  have h : Reads o [] _ ["graph", "input", "layout"] _ :=
    Reads.bind (reads_requireEntry (p := parseRef lib rec) (key := "layout") (D := RefDoc lib) (by decide) fun j hj a =>
      parseRef_ok hrec (Nat.le_trans (depth_lookup hj) ho)) (fun layout =>
    Reads.bind (reads_getEntry (D := OneOrManyDoc (PatternDoc lib)) (key := "input") (by decide) fun j _ a =>
      parseOneOrMany_ok (p := parsePattern lib) fun _ _ => parsePattern_ok) (fun input => reads_one
        (f := fun graph => SFormat.format layout (input.getD (.one (.var dflt))) (graph.getD none))
      (reads_getEntry (D := GraphDoc lib) (key := "graph") (p := parseOption (parseOption (parsePattern lib))) (by decide)
        fun j _ a => parseGraph_ok)) (by decide)) (by decide)
  rw [runObj_ok h, Members.congr (ks' := ["layout", "input", "graph"]) (by intro k; simp; tauto)]
  constructor
  · rintro ⟨hm, r, hr, x, hx, y, hy, rfl⟩
    obtain ⟨j, hj, hr⟩ := optSome.1 hr
    exact ⟨j, r, _, _, hm, hj, hr, default_getD.1 ⟨x, hx, rfl⟩, default_getD.1 ⟨y, hy, rfl⟩, rfl⟩
  · rintro ⟨j, r, input, graph, hm, hj, hr, hi, hg, rfl⟩
    obtain ⟨x, hx, rfl⟩ := default_getD.2 hi
    obtain ⟨y, hy, rfl⟩ := default_getD.2 hg
    exact ⟨hm, r, optSome.2 ⟨j, hj, hr⟩, x, hx, y, hy, rfl⟩

theorem parseFormat_ok {d : Nat} (hrec : RecOk lib rec d) {dflt : String} {j : Json} (hj : j.depth ≤ d) {f : SFormat} :
    parseFormat lib rec dflt j = .ok f ↔ FormatDoc lib dflt j f := by
  cases j with
  | string s =>
    simp only [parseFormat, Out.bind_eq_ok, parseIriString_ok, Out.ok.injEq]
    constructor
    · rintro ⟨i, ⟨rfl, h⟩, rfl⟩; exact .ref h
    · intro h
      cases h with
      | ref h => exact ⟨_, ⟨rfl, h⟩, rfl⟩
  | object o =>
    simp only [parseFormat]
    split
    · rename_i ht
      simp only [Out.bind_eq_ok, Out.ok.injEq, hrec o hj]
      constructor
      · rintro ⟨l, h, rfl⟩; exact .layout h
      · intro h
        cases h with
        | layout h => exact ⟨_, h, rfl⟩
        | format hm => exact absurd ht (hm.noType (by decide))
    · rename_i ht
      rw [parseFormatObject_ok hrec (by simp only [Json.depth] at hj; omega)]
      constructor
      · rintro ⟨j, r, input, graph, hm, hj, hr, hi, hg, rfl⟩; exact .format hm hj hr hi hg
      · intro h
        cases h with
        | layout h => exact absurd h.hasType ht
        | format hm hj hr hi hg => exact ⟨_, _, _, _, hm, hj, hr, hi, hg, rfl⟩
  | _ =>
    simp only [parseFormat, reduceCtorEq, false_iff]
    intro h; cases h

theorem parseField_ok {d : Nat} (hrec : RecOk lib rec d) {j : Json} (hj : j.depth ≤ d) {f : SField} :
    parseField lib rec j = .ok f ↔ FieldDoc lib j f := by
  cases j with
  | object o =>
    simp only [Json.depth] at hj
    have h : Reads o [] _ ["required", "property", "dataset", "value", "intro"] _ :=
      Reads.bind (reads_getEntry (p := parseOneOrMany parseString) (key := "intro") (D := OneOrManyDoc StringDoc) (by decide)
        fun j _ a => parseOneOrMany_ok fun _ _ => parseString_ok) (fun intro =>
      Reads.bind (reads_requireEntry (p := parseFormat lib rec "value") (key := "value") (D := FormatDoc lib "value") (by decide)
        fun j hj' a => parseFormat_ok hrec (Nat.le_trans (depth_lookup hj') (by omega))) (fun value =>
      Reads.bind (reads_getEntry (p := parseDataset lib) (key := "dataset") (D := DatasetDoc lib) (by decide)
        fun j _ a => parseDataset_ok) (fun dataset =>
      Reads.bind (reads_getEntry (p := parsePattern lib) (key := "property") (D := PatternDoc lib) (by decide)
        fun j _ a => parsePattern_ok) (fun property => reads_one
          (f := fun required => SField.mk (intro.getD (.one "value")) value (dataset.getD []) property (required.getD false))
        (reads_getEntry (p := parseBool) (key := "required") (D := BoolDoc) (by decide) fun j _ a => parseBool_ok))
        (by decide)) (by decide)) (by decide)) (by decide)
    simp only [parseField]
    rw [runObj_ok h, Members.congr (ks' := ["intro", "value", "dataset", "property", "required"]) (by intro k; simp; tauto)]
    constructor
    · rintro ⟨hm, x, hx, v, hv, y, hy, p, hp, z, hz, rfl⟩
      obtain ⟨j, hj, hv⟩ := optSome.1 hv
      exact .mk hm (default_getD.1 ⟨x, hx, rfl⟩) hj hv (default_getD.1 ⟨y, hy, rfl⟩) hp (default_getD.1 ⟨z, hz, rfl⟩)
    · intro h
      cases h with
      | mk hm hi hj hv hd hp hr =>
        obtain ⟨x, hx, rfl⟩ := default_getD.2 hi
        obtain ⟨y, hy, rfl⟩ := default_getD.2 hd
        obtain ⟨z, hz, rfl⟩ := default_getD.2 hr
        exact ⟨hm, x, hx, _, optSome.2 ⟨_, hj, hv⟩, y, hy, _, hp, z, hz, rfl⟩
  | _ =>
    simp only [parseField, reduceCtorEq, false_iff]
    intro h; cases h

theorem parseVariant_ok {d : Nat} (hrec : RecOk lib rec d) {j : Json} (hj : j.depth ≤ d) {v : SVariant} :
    parseVariant lib rec j = .ok v ↔ VariantDoc lib j v := by
  cases j with
  | object o =>
    simp only [Json.depth] at hj
    have h : Reads o [] _ ["dataset", "value", "intro"] _ :=
      Reads.bind (reads_getEntry (p := parseOneOrMany parseString) (key := "intro") (D := OneOrManyDoc StringDoc) (by decide)
        fun j _ a => parseOneOrMany_ok fun _ _ => parseString_ok) (fun intro =>
      Reads.bind (reads_requireEntry (p := parseFormat lib rec "self") (key := "value") (D := FormatDoc lib "self") (by decide)
        fun j hj' a => parseFormat_ok hrec (Nat.le_trans (depth_lookup hj') (by omega))) (fun value => reads_one
          (f := fun dataset => SVariant.mk (intro.getD (.many [])) value (dataset.getD []))
        (reads_getEntry (p := parseDataset lib) (key := "dataset") (D := DatasetDoc lib) (by decide)
        fun j _ a => parseDataset_ok)) (by decide)) (by decide)
    simp only [parseVariant]
    rw [runObj_ok h, Members.congr (ks' := ["intro", "value", "dataset"]) (by intro k; simp; tauto)]
    constructor
    · rintro ⟨hm, x, hx, v, hv, y, hy, rfl⟩
      obtain ⟨j, hj, hv⟩ := optSome.1 hv
      exact .mk hm (default_getD.1 ⟨x, hx, rfl⟩) hj hv (default_getD.1 ⟨y, hy, rfl⟩)
    · intro h
      cases h with
      | mk hm hi hj hv hd =>
        obtain ⟨x, hx, rfl⟩ := default_getD.2 hi
        obtain ⟨y, hy, rfl⟩ := default_getD.2 hd
        exact ⟨hm, x, hx, _, optSome.2 ⟨_, hj, hv⟩, y, hy, rfl⟩
  | _ =>
    simp only [parseVariant, reduceCtorEq, false_iff]
    intro h; cases h

theorem parseItem_ok {d : Nat} (hrec : RecOk lib rec d) {j : Json} (hj : j.depth ≤ d) {i : SItem} :
    parseItem lib rec j = .ok i ↔ ItemDoc lib j i := by
  cases j with
  | object o =>
    simp only [Json.depth] at hj
    have h : Reads o [] _ ["property", "dataset", "value", "intro"] _ :=
      Reads.bind (reads_getEntry (p := parseOneOrMany parseString) (key := "intro") (D := OneOrManyDoc StringDoc) (by decide)
        fun j _ a => parseOneOrMany_ok fun _ _ => parseString_ok) (fun intro =>
      Reads.bind (reads_requireEntry (p := parseFormat lib rec "value") (key := "value") (D := FormatDoc lib "value") (by decide)
        fun j hj' a => parseFormat_ok hrec (Nat.le_trans (depth_lookup hj') (by omega))) (fun value =>
      Reads.bind (reads_getEntry (p := parseDataset lib) (key := "dataset") (D := DatasetDoc lib) (by decide)
        fun j _ a => parseDataset_ok) (fun dataset => reads_one
          (f := fun property => SItem.mk (intro.getD (.one "value")) value (dataset.getD []) property)
        (reads_getEntry (p := parsePattern lib) (key := "property") (D := PatternDoc lib) (by decide)
        fun j _ a => parsePattern_ok)) (by decide)) (by decide)) (by decide)
    simp only [parseItem]
    rw [runObj_ok h, Members.congr (ks' := ["intro", "value", "dataset", "property"]) (by intro k; simp; tauto)]
    constructor
    · rintro ⟨hm, x, hx, v, hv, y, hy, p, hp, rfl⟩
      obtain ⟨j, hj, hv⟩ := optSome.1 hv
      exact .mk hm (default_getD.1 ⟨x, hx, rfl⟩) hj hv (default_getD.1 ⟨y, hy, rfl⟩) hp
    · intro h
      cases h with
      | mk hm hi hj hv hd hp =>
        obtain ⟨x, hx, rfl⟩ := default_getD.2 hi
        obtain ⟨y, hy, rfl⟩ := default_getD.2 hd
        exact ⟨hm, x, hx, _, optSome.2 ⟨_, hj, hv⟩, y, hy, _, hp, rfl⟩
  | _ =>
    simp only [parseItem, reduceCtorEq, false_iff]
    intro h; cases h

theorem parseNode_ok {d : Nat} (hrec : RecOk lib rec d) {j : Json} (hj : j.depth ≤ d) {n : SNode} :
    parseNode lib rec j = .ok n ↔ NodeDoc lib j n := by
  cases j with
  | string s =>
    simp only [parseNode, Out.bind_eq_ok, parseIriString_ok, Out.ok.injEq]
    constructor
    · rintro ⟨i, ⟨rfl, h⟩, rfl⟩; exact .ref h
    · intro h
      cases h with
      | ref h => exact ⟨_, ⟨rfl, h⟩, rfl⟩
  | object o =>
    simp only [parseNode]
    split
    · rename_i ht
      simp only [Out.bind_eq_ok, Out.ok.injEq, hrec o hj]
      constructor
      · rintro ⟨l, h, rfl⟩; exact .layout h
      · intro h
        cases h with
        | layout h => exact ⟨_, h, rfl⟩
        | node hm => exact absurd ht (hm.noType (by decide))
    · rename_i ht
      simp only [Json.depth] at hj
      have h : Reads o [] _ ["dataset", "value", "intro", "rest", "head"] _ :=
        Reads.bind (reads_getEntry (p := parseString) (key := "head") (D := StringDoc) (by decide)
          fun j _ a => parseString_ok) (fun head =>
        Reads.bind (reads_getEntry (p := parseString) (key := "rest") (D := StringDoc) (by decide)
          fun j _ a => parseString_ok) (fun rest =>
        Reads.bind (reads_getEntry (p := parseOneOrMany parseString) (key := "intro") (D := OneOrManyDoc StringDoc) (by decide)
          fun j _ a => parseOneOrMany_ok fun _ _ => parseString_ok) (fun intro =>
        Reads.bind (reads_requireEntry (p := parseFormat lib rec "value") (key := "value") (D := FormatDoc lib "value")
          (by decide) fun j hj' a => parseFormat_ok hrec (Nat.le_trans (depth_lookup hj') (by omega))) (fun value => reads_one
            (f := fun dataset => SNode.node (head.getD "head") (rest.getD "rest") (intro.getD (.one "value")) value dataset)
          (reads_getEntry (p := parseDataset lib) (key := "dataset") (D := DatasetDoc lib) (by decide)
          fun j _ a => parseDataset_ok)) (by decide)) (by decide)) (by decide)) (by decide)
      simp only [parseNodeObject]
      rw [runObj_ok h, Members.congr (ks' := ["head", "rest", "intro", "value", "dataset"]) (by intro k; simp; tauto)]
      constructor
      · rintro ⟨hm, x, hx, y, hy, z, hz, v, hv, ds, hd, rfl⟩
        obtain ⟨j, hj, hv⟩ := optSome.1 hv
        exact .node hm (default_getD.1 ⟨x, hx, rfl⟩) (default_getD.1 ⟨y, hy, rfl⟩) (default_getD.1 ⟨z, hz, rfl⟩) hj hv hd
      · intro h
        cases h with
        | layout h => exact absurd h.hasType ht
        | node hm hh hr hi hj hv hd =>
          obtain ⟨x, hx, rfl⟩ := default_getD.2 hh
          obtain ⟨y, hy, rfl⟩ := default_getD.2 hr
          obtain ⟨z, hz, rfl⟩ := default_getD.2 hi
          exact ⟨hm, x, hx, y, hy, z, hz, _, optSome.2 ⟨_, hj, hv⟩, _, hd, rfl⟩
  | _ =>
    simp only [parseNode, reduceCtorEq, false_iff]
    intro h; cases h

theorem fieldEntries_iff {es : JsonObject} {fs : List (Value × SField)} :
    List.Forall₂ (fun e r => r.1 = Value.text e.1 ∧ FieldDoc lib e.2 r.2) es fs ↔ FieldEntries lib es fs := by
  induction es generalizing fs with
  | nil =>
    constructor
    · intro h; cases h; exact .nil
    · intro h; cases h; exact .nil
  | cons e es ih =>
    constructor
    · intro h
      cases h with
      | @cons _ r _ fs h hs =>
        obtain ⟨k, f⟩ := r
        obtain ⟨rfl, h⟩ := h
        exact .cons h (ih.1 hs)
    · intro h
      cases h with
      | cons h hs => exact .cons ⟨rfl, h⟩ (ih.2 hs)

theorem variantEntries_iff {es : JsonObject} {vs : List (String × SVariant)} :
    List.Forall₂ (fun e r => e.1 = r.1 ∧ VariantDoc lib e.2 r.2) es vs ↔ VariantEntries lib es vs := by
  induction es generalizing vs with
  | nil =>
    constructor
    · intro h; cases h; exact .nil
    · intro h; cases h; exact .nil
  | cons e es ih =>
    constructor
    · intro h
      cases h with
      | @cons _ r _ fs h hs =>
        obtain ⟨k, f⟩ := r
        obtain ⟨rfl, h⟩ := h
        exact .cons h (ih.1 hs)
    · intro h
      cases h with
      | cons h hs => exact .cons ⟨rfl, h⟩ (ih.2 hs)

theorem itemList_iff {js : List Json} {is : List SItem} : List.Forall₂ (ItemDoc lib) js is ↔ ItemList lib js is := by
  induction js generalizing is with
  | nil =>
    constructor
    · intro h; cases h; exact .nil
    · intro h; cases h; exact .nil
  | cons e es ih =>
    constructor
    · intro h
      cases h with
      | cons h hs => exact .cons h (ih.1 hs)
    · intro h
      cases h with
      | cons h hs => exact .cons h (ih.2 hs)

theorem fieldsDoc_iff {v : Option Json} {fs : List (Value × SField)} :
    DefaultDoc (MapDoc Value.le (fun s k => k = Value.text s) (FieldDoc lib)) [] v fs ↔ FieldsDoc lib v fs := by
  cases v with
  | none =>
    simp only [DefaultDoc]
    constructor
    · rintro rfl; exact .absent
    · intro h; cases h; rfl
  | some j =>
    simp only [DefaultDoc, MapDoc, fieldEntries_iff]
    constructor
    · rintro ⟨o, l, rfl, h, rfl⟩; exact .present h
    · intro h
      cases h with
      | present h => exact ⟨_, _, rfl, h, rfl⟩

theorem variantsDoc_iff {v : Option Json} {vs : List (String × SVariant)} :
    DefaultDoc (MapDoc strLe Eq (VariantDoc lib)) [] v vs ↔ VariantsDoc lib v vs := by
  cases v with
  | none =>
    simp only [DefaultDoc]
    constructor
    · rintro rfl; exact .absent
    · intro h; cases h; rfl
  | some j =>
    simp only [DefaultDoc, MapDoc, variantEntries_iff]
    constructor
    · rintro ⟨o, l, rfl, h, rfl⟩; exact .present h
    · intro h
      cases h with
      | present h => exact ⟨_, _, rfl, h, rfl⟩

theorem itemsDoc_iff {v : Option Json} {is : List SItem} :
    DefaultDoc (ListDoc (ItemDoc lib)) [] v is ↔ ItemsDoc lib v is := by
  cases v with
  | none =>
    simp only [DefaultDoc]
    constructor
    · rintro rfl; exact .absent
    · intro h; cases h; rfl
  | some j =>
    simp only [DefaultDoc, ListDoc, itemList_iff]
    constructor
    · rintro ⟨js, rfl, h⟩; exact .present h
    · intro h
      cases h with
      | present h => exact ⟨_, rfl, h⟩

theorem parseRecord_ok {d : Nat} (hrec : RecOk lib rec d) {o : JsonObject} (ho : Json.depthEntries o ≤ d) {l : SLayout} :
    runObj o (parseRecord lib rec o) = .ok l ↔
      ∃ h fs, KindDoc lib o "record" ["fields"] h ∧ FieldsDoc lib (o.lookup "fields") fs ∧ l = .product h fs := by
  have h : Reads o [] (parseRecord lib rec o) ("extra" :: "dataset" :: "intro" :: "input" :: "id" :: "prefixes" :: "base" ::
      ["fields", "type"]) _ :=
    Reads.bind reads_checkType (fun _ =>
    Reads.bind (reads_getEntry (D := MapDoc Value.le (fun s k => k = Value.text s) (FieldDoc lib)) (key := "fields") (by decide)
      fun j hj a => parseMap_ok (fun s k => by simp [eq_comm]) fun o' ho' e he a => parseField_ok hrec (by
        have h1 := depth_lookup hj
        subst ho'
        have h2 := depth_entries he
        simp only [Json.depth] at h1
        omega)) (fun fields => Reads.bind (reads_header (by decide)) (fun h => reads_pure _ _
          (SLayout.product h (fields.getD []))) fun _ h => h) (by decide)) (by decide)
  rw [runObj_ok h, Members.congr (ks' := ["fields"] ++ headerMembers) (by intro k; simp [headerMembers]; tauto)]
  constructor
  · rintro ⟨hm, _, ht, x, hx, h, hh, rfl⟩
    exact ⟨h, _, ⟨hm, ht, hh⟩, fieldsDoc_iff.1 (default_getD.1 ⟨x, hx, rfl⟩), rfl⟩
  · rintro ⟨h, fs, ⟨hm, ht, hh⟩, hf, rfl⟩
    obtain ⟨x, hx, rfl⟩ := default_getD.2 (fieldsDoc_iff.2 hf)
    exact ⟨hm, (), ht, x, hx, h, hh, rfl⟩

theorem parseSum_ok {d : Nat} (hrec : RecOk lib rec d) {o : JsonObject} (ho : Json.depthEntries o ≤ d) {l : SLayout} :
    runObj o (parseSum lib rec o) = .ok l ↔
      ∃ h vs, KindDoc lib o "sum" ["variants"] h ∧ VariantsDoc lib (o.lookup "variants") vs ∧ l = .sum h vs := by
  refine (runObj_kind (members := ["variants"]) (ks := "variants" :: headerRead) (fun h => reads_one
    (f := fun vs => SLayout.sum h (vs.getD []))
    (reads_getEntry (o := o) (D := MapDoc strLe Eq (VariantDoc lib)) (key := "variants") (by decide) fun j hj a =>
      parseMap_ok (key := Out.ok) (K := Eq) (fun s k => ⟨fun h => by cases h; rfl, fun h => by rw [h]⟩) fun o' ho' e he a => parseVariant_ok hrec (by
        have h1 := depth_lookup hj
        subst ho'
        have h2 := depth_entries he
        simp only [Json.depth] at h1
        omega))) (by decide) ?_ l).trans ?_
  · intro k; simp [headerMembers]; tauto
  · constructor
    · rintro ⟨h, hk, x, hx, rfl⟩; exact ⟨h, _, hk, variantsDoc_iff.1 (default_getD.1 ⟨x, hx, rfl⟩), rfl⟩
    · rintro ⟨h, k, hk, hc, rfl⟩
      obtain ⟨x, hx, rfl⟩ := default_getD.2 (variantsDoc_iff.2 hc)
      exact ⟨h, hk, x, hx, rfl⟩

theorem parseTuple_ok {d : Nat} (hrec : RecOk lib rec d) {o : JsonObject} (ho : Json.depthEntries o ≤ d) {l : SLayout} :
    runObj o (parseTuple lib rec o) = .ok l ↔
      ∃ h is, KindDoc lib o "tuple" ["items"] h ∧ ItemsDoc lib (o.lookup "items") is ∧ l = .sized h is := by
  refine (runObj_kind (members := ["items"]) (ks := "items" :: headerRead) (fun h => reads_one
    (f := fun is => SLayout.sized h (is.getD []))
    (reads_getEntry (o := o) (D := ListDoc (ItemDoc lib)) (key := "items") (by decide) fun j hj a =>
      parseVec_ok fun js hjs i hi a => parseItem_ok hrec (by
        have h1 := depth_lookup hj
        subst hjs
        have h2 := depth_list hi
        simp only [Json.depth] at h1
        omega))) (by decide) ?_ l).trans ?_
  · intro k; simp [headerMembers]; tauto
  · constructor
    · rintro ⟨h, hk, x, hx, rfl⟩; exact ⟨h, _, hk, itemsDoc_iff.1 (default_getD.1 ⟨x, hx, rfl⟩), rfl⟩
    · rintro ⟨h, k, hk, hc, rfl⟩
      obtain ⟨x, hx, rfl⟩ := default_getD.2 (itemsDoc_iff.2 hc)
      exact ⟨h, hk, x, hx, rfl⟩

theorem parseSet_ok {d : Nat} (hrec : RecOk lib rec d) {o : JsonObject} (ho : Json.depthEntries o ≤ d) {l : SLayout} :
    runObj o (parseSet lib rec o) = .ok l ↔
      ∃ h j i, KindDoc lib o "set" ["item"] h ∧ o.lookup "item" = some j ∧ ItemDoc lib j i ∧ l = .unordered h i := by
  refine (runObj_kind (members := ["item"]) (ks := "item" :: headerRead) (fun h => reads_one
    (f := fun i => SLayout.unordered h i)
    (reads_requireEntry (D := ItemDoc lib) (by decide) fun j hj a =>
      parseItem_ok hrec (Nat.le_trans (depth_lookup hj) ho))) (by decide) ?_ l).trans ?_
  · intro k; simp [headerMembers]; tauto
  · constructor
    · rintro ⟨h, hk, x, hx, rfl⟩
      obtain ⟨j, hj, hx⟩ := optSome.1 hx
      exact ⟨h, _, _, hk, hj, hx, rfl⟩
    · rintro ⟨h, j, i, hk, hj, hi, rfl⟩
      exact ⟨h, hk, i, optSome.2 ⟨j, hj, hi⟩, rfl⟩

theorem parseList_ok {d : Nat} (hrec : RecOk lib rec d) {o : JsonObject} (ho : Json.depthEntries o ≤ d) {l : SLayout} :
    runObj o (parseList lib rec o) = .ok l ↔
      ∃ h j n hd tl, KindDoc lib o "list" ["node", "head", "tail"] h ∧ o.lookup "node" = some j ∧ NodeDoc lib j n ∧
        DefaultDoc (PatternDoc lib) (.var "self") (o.lookup "head") hd ∧
        DefaultDoc (PatternDoc lib) (.iri rdfNil) (o.lookup "tail") tl ∧ l = .ordered h n hd tl := by
  refine (runObj_kind (members := ["node", "head", "tail"]) (ks := "tail" :: "head" :: "node" :: headerRead) (fun h =>
    Reads.bind (reads_requireEntry (D := NodeDoc lib) (by decide) fun j hj a =>
      parseNode_ok hrec (Nat.le_trans (depth_lookup hj) ho)) (fun node =>
    Reads.bind (reads_getEntry (D := PatternDoc lib) (by decide) fun j _ a => parsePattern_ok) (fun head => reads_one
      (f := fun tail => SLayout.ordered h node (head.getD (.var "self")) (tail.getD (.iri rdfNil)))
      (reads_getEntry (D := PatternDoc lib) (by decide) fun j _ a => parsePattern_ok)) (by decide)) (by decide)) (by decide)
      ?_ l).trans ?_
  · intro k; simp [headerMembers]; tauto
  · constructor
    · rintro ⟨h, hk, n, hn, x, hx, y, hy, rfl⟩
      obtain ⟨j, hj, hn⟩ := optSome.1 hn
      exact ⟨h, _, _, _, _, hk, hj, hn, default_getD.1 ⟨x, hx, rfl⟩, default_getD.1 ⟨y, hy, rfl⟩, rfl⟩
    · rintro ⟨h, j, n, hd, tl, hk, hj, hn, hx, hy, rfl⟩
      obtain ⟨x, hx', rfl⟩ := default_getD.2 hx
      obtain ⟨y, hy', rfl⟩ := default_getD.2 hy
      exact ⟨h, hk, n, optSome.2 ⟨j, hj, hn⟩, x, hx', y, hy', rfl⟩

theorem ite_or {α : Type} {c : Prop} [Decidable c] {a b x : α} (h : (if c then a else b) = x) : a = x ∨ b = x := by
  by_cases hc : c
  · rw [if_pos hc] at h; exact .inl h
  · rw [if_neg hc] at h; exact .inr h

theorem kindParser_ok {d : Nat} (hrec : RecOk lib rec d) {o : JsonObject} (ho : Json.depthEntries o ≤ d) {ty : String}
    (ht : o.lookup "type" = some (.string ty)) {l : SLayout} :
    kindParser lib rec ty o = .ok l ↔ LayoutObj lib o l := by
  have key : ∀ {ty' : String} {ms : List String} {h : LayoutHeader}, KindDoc lib o ty' ms h → ty = ty' := by
    intro ty' ms h hk
    have := hk.type
    rw [ht] at this
    simpa using this
  have all : LayoutObj lib o l ↔
      ((∃ h e r, KindDoc lib o "id" ["pattern", "resource"] h ∧ OptDoc RegExpDoc (o.lookup "pattern") e ∧
        OptDoc (PatternDoc lib) (o.lookup "resource") r ∧ l = .id h e r) ∨
      (∃ h k, KindDoc lib o "unit" ["const"] h ∧ DefaultDoc ConstDoc (.literal .unit) (o.lookup "const") k ∧ l = .unit h k) ∨
      (∃ h r dt, KindDoc lib o "boolean" ["resource", "datatype"] h ∧ OptDoc (PatternDoc lib) (o.lookup "resource") r ∧
        OptDoc (IriDoc lib) (o.lookup "datatype") dt ∧ l = .boolean h r dt) ∨
      (∃ h r dt, KindDoc lib o "number" ["resource", "datatype"] h ∧ OptDoc (PatternDoc lib) (o.lookup "resource") r ∧
        OptDoc (IriDoc lib) (o.lookup "datatype") (some dt) ∧ l = .number h r dt) ∨
      (∃ h r dt, KindDoc lib o "bytes" ["resource", "datatype"] h ∧ OptDoc (PatternDoc lib) (o.lookup "resource") r ∧
        OptDoc (IriDoc lib) (o.lookup "datatype") (some dt) ∧ l = .byteString h r dt) ∨
      (∃ h e r dt, KindDoc lib o "string" ["pattern", "resource", "datatype"] h ∧ OptDoc RegExpDoc (o.lookup "pattern") e ∧
        OptDoc (PatternDoc lib) (o.lookup "resource") r ∧
        OptDoc (IriDoc lib) (o.lookup "datatype") dt ∧ l = .textString h e r dt) ∨
      (∃ h fs, KindDoc lib o "record" ["fields"] h ∧ FieldsDoc lib (o.lookup "fields") fs ∧ l = .product h fs) ∨
      (∃ h vs, KindDoc lib o "sum" ["variants"] h ∧ VariantsDoc lib (o.lookup "variants") vs ∧ l = .sum h vs) ∨
      (∃ h j n hd tl, KindDoc lib o "list" ["node", "head", "tail"] h ∧ o.lookup "node" = some j ∧ NodeDoc lib j n ∧
        DefaultDoc (PatternDoc lib) (.var "self") (o.lookup "head") hd ∧
        DefaultDoc (PatternDoc lib) (.iri rdfNil) (o.lookup "tail") tl ∧ l = .ordered h n hd tl) ∨
      (∃ h j i, KindDoc lib o "set" ["item"] h ∧ o.lookup "item" = some j ∧ ItemDoc lib j i ∧ l = .unordered h i) ∨
      (∃ h is, KindDoc lib o "tuple" ["items"] h ∧ ItemsDoc lib (o.lookup "items") is ∧ l = .sized h is) ∨
      (∃ h, KindDoc lib o "union" [] h ∧ l = .union h) ∨
      (∃ h, KindDoc lib o "intersection" [] h ∧ l = .intersection h)) := by
    constructor
    · intro h
      cases h with
      | id hk he hr => exact .inl ⟨_, _, _, hk, he, hr, rfl⟩
      | unit hk hc => exact .inr (.inl ⟨_, _, hk, hc, rfl⟩)
      | boolean hk hr hd => exact .inr (.inr (.inl ⟨_, _, _, hk, hr, hd, rfl⟩))
      | number hk hr hd => exact .inr (.inr (.inr (.inl ⟨_, _, _, hk, hr, hd, rfl⟩)))
      | byteString hk hr hd => exact .inr (.inr (.inr (.inr (.inl ⟨_, _, _, hk, hr, hd, rfl⟩))))
      | textString hk he hr hd => exact .inr (.inr (.inr (.inr (.inr (.inl ⟨_, _, _, _, hk, he, hr, hd, rfl⟩)))))
      | record hk hf => exact .inr (.inr (.inr (.inr (.inr (.inr (.inl ⟨_, _, hk, hf, rfl⟩))))))
      | sum hk hv => exact .inr (.inr (.inr (.inr (.inr (.inr (.inr (.inl ⟨_, _, hk, hv, rfl⟩)))))))
      | list hk hj hn hh htl =>
        exact .inr (.inr (.inr (.inr (.inr (.inr (.inr (.inr (.inl ⟨_, _, _, _, _, hk, hj, hn, hh, htl, rfl⟩))))))))
      | set hk hj hi =>
        exact .inr (.inr (.inr (.inr (.inr (.inr (.inr (.inr (.inr (.inl ⟨_, _, _, hk, hj, hi, rfl⟩)))))))))
      | tuple hk hi =>
        exact .inr (.inr (.inr (.inr (.inr (.inr (.inr (.inr (.inr (.inr (.inl ⟨_, _, hk, hi, rfl⟩))))))))))
      | union hk =>
        exact .inr (.inr (.inr (.inr (.inr (.inr (.inr (.inr (.inr (.inr (.inr (.inl ⟨_, hk, rfl⟩)))))))))))
      | intersection hk =>
        exact .inr (.inr (.inr (.inr (.inr (.inr (.inr (.inr (.inr (.inr (.inr (.inr ⟨_, hk, rfl⟩)))))))))))
    · rintro (⟨_, _, _, hk, he, hr, rfl⟩ | ⟨_, _, hk, hc, rfl⟩ | ⟨_, _, _, hk, hr, hd, rfl⟩ | ⟨_, _, _, hk, hr, hd, rfl⟩ |
        ⟨_, _, _, hk, hr, hd, rfl⟩ | ⟨_, _, _, _, hk, he, hr, hd, rfl⟩ | ⟨_, _, hk, hf, rfl⟩ | ⟨_, _, hk, hv, rfl⟩ |
        ⟨_, _, _, _, _, hk, hj, hn, hh, htl, rfl⟩ | ⟨_, _, _, hk, hj, hi, rfl⟩ | ⟨_, _, hk, hi, rfl⟩ | ⟨_, hk, rfl⟩ |
        ⟨_, hk, rfl⟩)
      · exact .id hk he hr
      · exact .unit hk hc
      · exact .boolean hk hr hd
      · exact .number hk hr hd
      · exact .byteString hk hr hd
      · exact .textString hk he hr hd
      · exact .record hk hf
      · exact .sum hk hv
      · exact .list hk hj hn hh htl
      · exact .set hk hj hi
      · exact .tuple hk hi
      · exact .union hk
      · exact .intersection hk
  rw [all, ← parseIdLayout_ok, ← parseUnit_ok, ← parseBooleanLayout_ok, ← parseNumber_ok, ← parseByteString_ok,
    ← parseTextString_ok, ← parseRecord_ok hrec ho, ← parseSum_ok hrec ho, ← parseList_ok hrec ho, ← parseSet_ok hrec ho,
    ← parseTuple_ok hrec ho, ← parseUnion_ok, ← parseIntersection_ok]
  -- a parser of another kind cannot succeed
  have e1 : runObj o (parseIdLayout lib o) = .ok l → ty = "id" := fun h => by
    obtain ⟨_, _, _, hk, _⟩ := parseIdLayout_ok.1 h; exact key hk
  have e2 : runObj o (parseUnit lib o) = .ok l → ty = "unit" := fun h => by
    obtain ⟨_, _, hk, _⟩ := parseUnit_ok.1 h; exact key hk
  have e3 : runObj o (parseBooleanLayout lib o) = .ok l → ty = "boolean" := fun h => by
    obtain ⟨_, _, _, hk, _⟩ := parseBooleanLayout_ok.1 h; exact key hk
  have e4 : runObj o (parseNumber lib o) = .ok l → ty = "number" := fun h => by
    obtain ⟨_, _, _, hk, _⟩ := parseNumber_ok.1 h; exact key hk
  have e5 : runObj o (parseByteString lib o) = .ok l → ty = "bytes" := fun h => by
    obtain ⟨_, _, _, hk, _⟩ := parseByteString_ok.1 h; exact key hk
  have e6 : runObj o (parseTextString lib o) = .ok l → ty = "string" := fun h => by
    obtain ⟨_, _, _, _, hk, _⟩ := parseTextString_ok.1 h; exact key hk
  have e7 : runObj o (parseRecord lib rec o) = .ok l → ty = "record" := fun h => by
    obtain ⟨_, _, hk, _⟩ := (parseRecord_ok hrec ho).1 h; exact key hk
  have e8 : runObj o (parseSum lib rec o) = .ok l → ty = "sum" := fun h => by
    obtain ⟨_, _, hk, _⟩ := (parseSum_ok hrec ho).1 h; exact key hk
  have e9 : runObj o (parseList lib rec o) = .ok l → ty = "list" := fun h => by
    obtain ⟨_, _, _, _, _, hk, _⟩ := (parseList_ok hrec ho).1 h; exact key hk
  have e10 : runObj o (parseSet lib rec o) = .ok l → ty = "set" := fun h => by
    obtain ⟨_, _, _, hk, _⟩ := (parseSet_ok hrec ho).1 h; exact key hk
  have e11 : runObj o (parseTuple lib rec o) = .ok l → ty = "tuple" := fun h => by
    obtain ⟨_, _, hk, _⟩ := (parseTuple_ok hrec ho).1 h; exact key hk
  have e12 : runObj o (parseUnion lib o) = .ok l → ty = "union" := fun h => by
    obtain ⟨_, hk, _⟩ := parseUnion_ok.1 h; exact key hk
  have e13 : runObj o (parseIntersection lib o) = .ok l → ty = "intersection" := fun h => by
    obtain ⟨_, hk, _⟩ := parseIntersection_ok.1 h; exact key hk
  clear all key hrec
  unfold kindParser
  constructor
  · intro h
    refine (ite_or h).imp _root_.id fun h => ?_
    refine (ite_or h).imp _root_.id fun h => ?_
    refine (ite_or h).imp _root_.id fun h => ?_
    refine (ite_or h).imp _root_.id fun h => ?_
    refine (ite_or h).imp _root_.id fun h => ?_
    refine (ite_or h).imp _root_.id fun h => ?_
    refine (ite_or h).imp _root_.id fun h => ?_
    refine (ite_or h).imp _root_.id fun h => ?_
    refine (ite_or h).imp _root_.id fun h => ?_
    refine (ite_or h).imp _root_.id fun h => ?_
    refine (ite_or h).imp _root_.id fun h => ?_
    refine (ite_or h).imp _root_.id fun h => ?_
    rcases ite_or h with h | h
    · exact h
    · cases h
  · rintro (h | h | h | h | h | h | h | h | h | h | h | h | h)
    · rw [e1 h]; exact h
    · rw [e2 h]; exact h
    · rw [e3 h]; exact h
    · rw [e4 h]; exact h
    · rw [e5 h]; exact h
    · rw [e6 h]; exact h
    · rw [e7 h]; exact h
    · rw [e8 h]; exact h
    · rw [e9 h]; exact h
    · rw [e10 h]; exact h
    · rw [e11 h]; exact h
    · rw [e12 h]; exact h
    · rw [e13 h]; exact h

theorem parseObjectWith_ok {d : Nat} (hrec : RecOk lib rec d) {o : JsonObject} (ho : Json.depthEntries o ≤ d) {l : SLayout} :
    parseObjectWith lib rec o = .ok l ↔ LayoutObj lib o l := by
  unfold parseObjectWith
  simp only [Out.bind_eq_ok, requireType_ok]
  rcases uniqueEntry_cases o "type" with ⟨h1, h2, h3⟩ | ⟨n, v, h1, h2, h3, h4⟩ | ⟨h1, h2⟩
  · constructor
    · rintro ⟨a, h, _⟩; rw [h1] at h; simp at h
    · intro h
      obtain ⟨_, _, _, hk⟩ := h.kind
      rw [hk.type] at h2; cases h2
  · constructor
    · rintro ⟨⟨i, ty⟩, h, h'⟩
      have h0 := h1.symm.trans h
      injection h0 with h0
      injection h0 with h0
      injection h0 with h0 h0'
      subst h0 h0'
      exact (kindParser_ok hrec ho h2).1 h'
    · intro h
      obtain ⟨ty, _, _, hk⟩ := h.kind
      have ht := hk.type
      rw [h2] at ht
      simp only [Option.some.injEq] at ht
      subst ht
      exact ⟨(n, ty), h1, (kindParser_ok hrec ho h2).2 h⟩
  · constructor
    · rintro ⟨a, h, _⟩; rw [h1] at h; cases h
    · intro h
      obtain ⟨_, _, _, hk⟩ := h.kind
      exact absurd (List.nodup_iff_count_le_one.1 hk.members.1 "type") h2

theorem parseLayoutObject_ok (n : Nat) : RecOk lib (parseLayoutObject lib n) n := by
  induction n with
  | zero => intro o h; omega
  | succ n ih =>
    intro o ho l
    exact parseObjectWith_ok ih (by omega)

/-- The parser accepts exactly the layout definitions of the grammar. -/
theorem parseLayout_ok {j : Json} {l : SLayout} : parseLayout lib j = .ok l ↔ LayoutDoc lib j l := by
  cases j with
  | boolean b =>
    simp only [parseLayout, Out.ok.injEq]
    constructor
    · rintro rfl; exact .bool b
    · intro h; cases h; rfl
  | object o =>
    simp only [parseLayout]
    rw [parseLayoutObject_ok _ o (Nat.le_refl _)]
    exact ⟨.object, fun h => by cases h; assumption⟩
  | _ =>
    simp only [parseLayout, reduceCtorEq, false_iff]
    intro h; cases h

end Verif
