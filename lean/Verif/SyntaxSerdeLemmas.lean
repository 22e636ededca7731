import Verif.SyntaxSerde
import Verif.SyntaxParseMain

/-!
# What the grammar accepts is deserialized to the same definition
-/

set_option linter.unusedSectionVars false
set_option linter.unusedSimpArgs false

namespace Verif

mutual
/-- The document contains no number but integers of 64 bits, signed or not, and no object whose members `value` and `language` are strings. -/
def Json.agreed : Json → Bool
  | .number s => (parseI64 s).isSome || (parseUnsigned64 s).isSome
  | .array l => Json.agreedList l
  | .object m =>
    (match List.lookup "value" m, List.lookup "language" m with
      | some (.string _), some (.string _) => false
      | _, _ => true) && Json.agreedEntries m
  | _ => true

/-- `agreed`, for the items of an array. -/
def Json.agreedList : List Json → Bool
  | [] => true
  | j :: l => j.agreed && Json.agreedList l

/-- `agreed`, for the entries of an object. -/
def Json.agreedEntries : List (String × Json) → Bool
  | [] => true
  | (_, j) :: m => j.agreed && Json.agreedEntries m
end

mutual
/-- The document contains no number. -/
def Json.noNumber : Json → Bool
  | .number _ => false
  | .array l => Json.noNumberList l
  | .object m => Json.noNumberEntries m
  | _ => true

/-- `noNumber`, for the items of an array. -/
def Json.noNumberList : List Json → Bool
  | [] => true
  | j :: l => j.noNumber && Json.noNumberList l

/-- `noNumber`, for the entries of an object. -/
def Json.noNumberEntries : List (String × Json) → Bool
  | [] => true
  | (_, j) :: m => j.noNumber && Json.noNumberEntries m
end

namespace Serde

mutual
theorem buffer_of_plain : ∀ j : Json, j.noNumber = true → j.buffer = j
  | .null, _ => by simp [Json.buffer]
  | .boolean _, _ => by simp [Json.buffer]
  | .string _, _ => by simp [Json.buffer]
  | .number _, h => by simp [Json.noNumber] at h
  | .array l, h => by
    simp only [Json.noNumber] at h
    simp only [Json.buffer, bufferList_of_plain l h]
  | .object m, h => by
    simp only [Json.noNumber] at h
    simp only [Json.buffer, bufferEntries_of_plain m h]

theorem bufferList_of_plain : ∀ l : List Json, Json.noNumberList l = true → Json.bufferList l = l
  | [], _ => by simp [Json.bufferList]
  | j :: l, h => by
    simp only [Json.noNumberList, Bool.and_eq_true] at h
    simp only [Json.bufferList, buffer_of_plain j h.1, bufferList_of_plain l h.2]

theorem bufferEntries_of_plain : ∀ l : List (String × Json), Json.noNumberEntries l = true → Json.bufferEntries l = l
  | [], _ => by simp [Json.bufferEntries]
  | (k, j) :: l, h => by
    simp only [Json.noNumberEntries, Bool.and_eq_true] at h
    simp only [Json.bufferEntries, buffer_of_plain j h.1, bufferEntries_of_plain l h.2]
end

variable {other : List Char → Json}

mutual
theorem bufferValue_of_plain : ∀ j : Json, j.agreed = true → j.bufferValue other = j
  | .null, _ => by simp [Json.bufferValue]
  | .boolean _, _ => by simp [Json.bufferValue]
  | .string _, _ => by simp [Json.bufferValue]
  | .number _, h => by
    simp only [Json.agreed, Bool.or_eq_true] at h
    simp only [Json.bufferValue]
    rw [if_pos h]
  | .array l, h => by
    simp only [Json.agreed] at h
    simp only [Json.bufferValue, bufferValueList_of_plain l h]
  | .object m, h => by
    simp only [Json.agreed, Bool.and_eq_true] at h
    simp only [Json.bufferValue, bufferValueEntries_of_plain m h.2]

theorem bufferValueList_of_plain : ∀ l : List Json, Json.agreedList l = true → Json.bufferValueList other l = l
  | [], _ => by simp [Json.bufferValueList]
  | j :: l, h => by
    simp only [Json.agreedList, Bool.and_eq_true] at h
    simp only [Json.bufferValueList, bufferValue_of_plain j h.1, bufferValueList_of_plain l h.2]

theorem bufferValueEntries_of_plain : ∀ l : List (String × Json), Json.agreedEntries l = true → Json.bufferValueEntries other l = l
  | [], _ => by simp [Json.bufferValueEntries]
  | (k, j) :: l, h => by
    simp only [Json.agreedEntries, Bool.and_eq_true] at h
    simp only [Json.bufferValueEntries, bufferValue_of_plain j h.1, bufferValueEntries_of_plain l h.2]
end

theorem plain_entries {o : JsonObject} (h : Json.agreedEntries o = true) : ∀ e ∈ o, e.2.agreed = true := by
  induction o with
  | nil => simp
  | cons e o ih =>
    obtain ⟨k, j⟩ := e
    simp only [Json.agreedEntries, Bool.and_eq_true] at h
    intro e he
    rcases List.mem_cons.1 he with rfl | he
    · exact h.1
    · exact ih h.2 e he

theorem plain_list {l : List Json} (h : Json.agreedList l = true) : ∀ j ∈ l, j.agreed = true := by
  induction l with
  | nil => simp
  | cons e o ih =>
    simp only [Json.agreedList, Bool.and_eq_true] at h
    intro e he
    rcases List.mem_cons.1 he with rfl | he
    · exact h.1
    · exact ih h.2 e he

/-- A document of bounded depth without tagged strings and without numbers but integers of 64 bits. -/
def Small (d : Nat) (j : Json) : Prop := j.depth ≤ d ∧ j.agreed = true

/-- The entries of an object are small. -/
def SmallObj (d : Nat) (o : JsonObject) : Prop := Json.depthEntries o ≤ d ∧ Json.agreedEntries o = true

theorem Small.mono {d d' : Nat} {j : Json} (h : Small d j) (hd : d ≤ d') : Small d' j := ⟨Nat.le_trans h.1 hd, h.2⟩

theorem Small.object {d : Nat} {o : JsonObject} (h : Small d (.object o)) : SmallObj d o := by
  obtain ⟨h1, h2⟩ := h
  simp only [Json.depth] at h1
  simp only [Json.agreed, Bool.and_eq_true] at h2
  exact ⟨by omega, h2.2⟩

theorem SmallObj.entry {d : Nat} {o : JsonObject} (h : SmallObj d o) {e : String × Json} (he : e ∈ o) : Small d e.2 :=
  ⟨Nat.le_trans (depth_entries he) h.1, plain_entries h.2 e he⟩

theorem SmallObj.lookup {d : Nat} {o : JsonObject} (h : SmallObj d o) {k : String} {j : Json} (hj : o.lookup k = some j) : Small d j :=
  h.entry (mem_of_lookup_obj hj)

theorem Small.item {d : Nat} {l : List Json} (h : Small d (.array l)) {j : Json} (hj : j ∈ l) : Small d j := by
  obtain ⟨h1, h2⟩ := h
  simp only [Json.depth] at h1
  simp only [Json.agreed] at h2
  exact ⟨Nat.le_trans (depth_list hj) (by omega), plain_list h2 j hj⟩

/-- The deserializer reads every small document that `P` describes as `P` says. -/
def Reads {α : Type} (d : Nat) (p : Json → Option α) (P : Json → α → Prop) : Prop := ∀ j a, Small d j → P j a → p j = some a

variable {α : Type} {d : Nat} {p : Json → Option α} {P : Json → α → Prop}

theorem mapFields_of {names : List String} {o : JsonObject} (h : Members o names) : mapFields names o = some fun k => o.lookup k :=
  if_pos h

theorem mapFields_eq {names : List String} {o : JsonObject} {f : String → Option Json} (h : mapFields names o = some f) :
    Members o names ∧ f = fun k => o.lookup k := by
  unfold mapFields at h
  split at h
  · next hm => injection h with h; exact ⟨hm, h.symm⟩
  · cases h

theorem reads_required (hp : Reads d p P) {o : JsonObject} (ho : SmallObj d o) {k : String} {j : Json} {a : α}
    (hj : o.lookup k = some j) (h : P j a) : required p (o.lookup k) = some a := by
  rw [hj]; exact hp j a (ho.lookup hj) h

theorem reads_default (hp : Reads d p P) {o : JsonObject} (ho : SmallObj d o) {k : String} {dflt a : α}
    (h : DefaultDoc P dflt (o.lookup k) a) : withDefault dflt p (o.lookup k) = some a := by
  cases hj : o.lookup k with
  | none => rw [hj] at h; cases h; rfl
  | some j => rw [hj] at h; exact hp j a (ho.lookup hj) h

theorem reads_optional (hp : Reads d p P) (hn : ∀ a, ¬ P .null a) {o : JsonObject} (ho : SmallObj d o) {k : String} {a : Option α}
    (h : OptDoc P (o.lookup k) a) : optional p (o.lookup k) = some a := by
  cases hj : o.lookup k with
  | none => rw [hj] at h; cases a with
    | none => rfl
    | some a => exact h.elim
  | some j =>
    rw [hj] at h
    cases a with
    | none => cases h
    | some a =>
      cases j with
      | null => exact (hn a h).elim
      | _ => simp [optional, hp _ a (ho.lookup hj) h]

theorem reads_vec (hp : Reads d p P) : Reads d (vec p) (ListDoc P) := by
  rintro j l hs ⟨js, rfl, h⟩
  have hi := fun j hj => hs.item (j := j) hj
  clear hs
  simp only [vec]
  induction h with
  | nil => rfl
  | cons hx _ ih =>
    rw [List.mapM_cons, hp _ _ (hi _ (by simp)) hx, ih fun j hj => hi j (by simp [hj])]
    rfl

theorem reads_oneOrMany (hp : Reads d p P) (ha : ∀ js, p (.array js) = none) : Reads d (oneOrMany p) (OneOrManyDoc P) := by
  intro j l hs h
  cases l with
  | one a => simp [oneOrMany, hp j a hs h.2]
  | many l =>
    have hv := reads_vec hp j l hs h
    obtain ⟨js, rfl, -⟩ := h
    simp [oneOrMany, ha, hv]

theorem reads_map {κ : Type} [DecidableEq κ] {le : κ → κ → Bool} {key : String → Option κ} {K : String → κ → Prop}
    (hk : ∀ s k, K s k → key s = some k) (hp : Reads d p P) : Reads d (map le key p) (MapDoc le K P) := by
  rintro j m hs ⟨o, l, rfl, h, rfl⟩
  have hi := fun e he => hs.object.entry (e := e) he
  clear hs
  simp only [map]
  have : (o.mapM fun e => (key e.1).bind fun k => (p e.2).map fun a => (k, a)) = some l := by
    induction h with
    | nil => rfl
    | cons hx _ ih =>
      rw [List.mapM_cons, hk _ _ hx.1, ih fun j hj => hi j (by simp [hj])]
      simp only [Option.bind_some, hp _ _ (hi _ (by simp)) hx.2]
      rfl
  rw [this]; rfl

/-! ## Leaves -/

variable {lib : ParseLib}

theorem reads_string : Reads d string StringDoc := by rintro j a - rfl; rfl

theorem reads_bool : Reads d bool BoolDoc := by rintro j a - rfl; rfl

theorem reads_iri : Reads d (iri lib) (IriDoc lib) := by
  rintro j a - ⟨rfl, h⟩
  simp [iri, string, iriString, h]

theorem unique_of_nodup {o : JsonObject} (h : (o.map Prod.fst).Nodup) (k : String) : unique o k = some (o.lookup k) := by
  have key : o.filter (fun e => e.1 = k) = ((o.lookup k).map fun j => (k, j)).toList := by
    induction o with
    | nil => rfl
    | cons e o ih =>
      obtain ⟨k', j⟩ := e
      simp only [List.map_cons, List.nodup_cons] at h
      by_cases hk : k' = k
      · subst hk
        have : o.filter (fun e => decide (e.1 = k')) = [] := by
          rw [List.filter_eq_nil_iff]
          intro e he hc
          exact h.1 (List.mem_map.2 ⟨e, he, by simpa using hc⟩)
        simp [List.filter_cons, List.lookup_cons, this]
      · have hb : (k == k') = false := beq_eq_false_iff_ne.2 (Ne.symm hk)
        simp only [List.filter_cons, hk, decide_false, List.lookup_cons, hb]
        exact ih h.2
  unfold unique
  rw [key]
  cases o.lookup k <;> rfl

theorem reads_pattern : Reads d (pattern lib) (PatternDoc lib) := by
  intro j a hs h
  cases h with
  | var h hx =>
    simp only [pattern, h, if_true, Option.some.injEq, SPattern.var.injEq, blankSuffix]
    rw [← hx, String.ofList_toList]
  | iri h hi =>
    simp [pattern, h, hi]
  | typed hm ht hi hv =>
    simp [pattern, literalValue, literalTypeIri, unique_of_nodup hm.1, ht, hv, required, withDefault, iri, string, iriString, hi]
  | language hm ht hl hv =>
    have := hs.2
    simp [Json.agreed, ht, hv] at this

theorem reads_quad : Reads d (quad lib) (QuadDoc lib) := by
  intro j a hs h
  cases h with
  | three h1 h2 h3 =>
    simp [quad, reads_pattern _ _ (hs.item (by simp)) h1, reads_pattern _ _ (hs.item (by simp)) h2,
      reads_pattern _ _ (hs.item (by simp)) h3, optional]
  | @four _ _ _ jg _ _ _ _ h1 h2 h3 h4 =>
    have := reads_pattern _ _ (hs.item (by simp)) h4
    cases jg with
    | null => cases h4
    | _ => simp [quad, reads_pattern _ _ (hs.item (by simp)) h1, reads_pattern _ _ (hs.item (by simp)) h2,
        reads_pattern _ _ (hs.item (by simp)) h3, optional, this]

theorem reads_dataset : Reads d (dataset lib) (DatasetDoc lib) := reads_vec reads_quad

theorem reads_resource : Reads d (resource lib) (ResourceDoc lib) := by
  intro j a hs h
  cases h with
  | boolean b => rfl
  | number h => simp [resource, parseI64_ok.2 h]
  | string s => rfl
  | typed hm ht hi hv =>
    simp [resource, unique_of_nodup hm.1, ht, hv, required, iri, string, iriString, hi]

theorem reads_regExp : Reads d regExp RegExpDoc := by
  rintro j a - ⟨s, rfl, h⟩
  simp [regExp, string, h]

theorem reads_const : Reads d const ConstDoc := by
  intro j a _ h
  simp only [ConstDoc] at h
  simp [const, h]

theorem pattern_array (js : List Json) : pattern lib (.array js) = none := rfl

theorem string_array (js : List Json) : string (.array js) = none := rfl

theorem reads_strings : Reads d (oneOrMany string) (OneOrManyDoc StringDoc) := reads_oneOrMany reads_string string_array

theorem header_of {o : JsonObject} (ho : SmallObj d o) {h : LayoutHeader} (hd : HeaderDoc lib o h) :
    header lib (fun k => o.lookup k) = some h := by
  unfold header
  rw [reads_optional reads_iri (by rintro a ⟨h, -⟩; cases h) ho hd.base]
  simp only [Option.bind_some]
  rw [reads_default (reads_map (K := Eq) (by rintro s k rfl; rfl) reads_iri) ho hd.prefixes]
  simp only [Option.bind_some]
  rw [reads_optional reads_iri (by rintro a ⟨h, -⟩; cases h) ho hd.id]
  simp only [Option.bind_some]
  rw [reads_default reads_strings ho hd.input]
  simp only [Option.bind_some]
  rw [reads_default reads_strings ho hd.intro]
  simp only [Option.bind_some]
  rw [reads_default reads_dataset ho hd.dataset]
  simp only [Option.bind_some]
  have he := reads_default (reads_map (le := lib.leIri) (key := iriString lib)
    (K := fun k i => k = i ∧ lib.isIriRef i = true)
    (by rintro s k ⟨rfl, h⟩; simp [iriString, h]) reads_resource) ho hd.extra
  rw [he]
  rfl

/-! ## Layouts -/

theorem kind_of {o : JsonObject} (ho : SmallObj d o) {ty : String} {ms : List String} {h : LayoutHeader}
    (hk : KindDoc lib o ty ms h) (body : LayoutHeader → (String → Option Json) → Option SLayout) :
    kind lib ty ms body (.object o) = body h fun k => o.lookup k := by
  simp only [kind, mapFields_of hk.members, Option.bind_some, hk.type, required, string, if_true, header_of ho hk.header]

theorem kind_other {o : JsonObject} {ty ty' : String} (ht : o.lookup "type" = some (.string ty)) (hne : ty ≠ ty') (ms : List String)
    (body : LayoutHeader → (String → Option Json) → Option SLayout) : kind lib ty' ms body (.object o) = none := by
  simp only [kind]
  cases hm : mapFields (ms ++ headerMembers) o with
  | none => rfl
  | some f =>
    obtain ⟨-, rfl⟩ := mapFields_eq hm
    simp [ht, required, string, hne]

section

variable {rec : Json → Option SLayout}

/-- The deserializer of nested layouts is right up to a given depth. -/
def RecOk (lib : ParseLib) (rec : Json → Option SLayout) (d : Nat) : Prop :=
  ∀ o l, Small d (.object o) → LayoutObj lib o l → rec (.object o) = some l

variable (hrec : RecOk lib rec d)
include hrec

theorem reads_ref : Reads d (ref lib rec) (RefDoc lib) := by
  intro j a hs h
  cases h with
  | ref h =>
    simp [ref, iri, string, iriString, h]
  | layout h => simp [ref, iri, string, hrec _ _ hs h]

theorem ref_layout {o : JsonObject} {l : SLayout} (hs : Small d (.object o)) (h : LayoutObj lib o l) :
    ref lib rec (.object o) = some (.layout l) := reads_ref hrec _ _ hs (.layout h)

omit hrec in
theorem struct_layout {o : JsonObject} {l : SLayout} (h : LayoutObj lib o l) {names : List String} (hn : "type" ∉ names) :
    fields names (.object o) = none := by
  simp only [fields]
  cases hm : mapFields names o with
  | none => rfl
  | some f => exact ((mapFields_eq hm).1.noType hn h.hasType).elim

theorem reads_format (dflt : String) : Reads d (format lib rec dflt) (FormatDoc lib dflt) := by
  intro j a hs h
  cases h with
  | ref h =>
    simp [format, formatStruct, fields, ref, iri, string, iriString, h]
  | layout h =>
    simp [format, formatStruct, struct_layout h (names := ["layout", "input", "graph"]) (by decide), ref_layout hrec hs h]
  | @format _ o j r input graph hm hj hr hi hg =>
    have h1 := reads_required (reads_ref hrec) hs.object hj hr
    have h2 := reads_default (reads_oneOrMany reads_pattern pattern_array) hs.object hi
    have h3 : optional (optional (pattern lib) ∘ some) (o.lookup "graph") = some graph := by
      cases hg' : o.lookup "graph" with
      | none => rw [hg'] at hg; cases hg; rfl
      | some j =>
        rw [hg'] at hg
        cases hg with
        | null => rfl
        | pattern hp =>
          have := reads_pattern _ _ (hs.object.lookup hg') hp
          cases j with
          | null => cases hp
          | _ => simp [optional, this]
    simp only [format, formatStruct, fields, mapFields_of hm, Option.bind_some, h1, h2, h3]
    rfl

theorem reads_field : Reads d (field lib rec) (FieldDoc lib) := by
  intro j a hs h
  cases h with
  | mk hm hi hj hv hd hp hr =>
    simp only [field, fields, mapFields_of hm, Option.bind_some, reads_default reads_strings hs.object hi,
      reads_required (reads_format hrec "value") hs.object hj hv, reads_default reads_dataset hs.object hd,
      reads_optional reads_pattern (by rintro a ⟨⟩) hs.object hp, reads_default reads_bool hs.object hr]

theorem reads_variant : Reads d (variant lib rec) (VariantDoc lib) := by
  intro j a hs h
  cases h with
  | mk hm hi hj hv hd =>
    simp only [variant, fields, mapFields_of hm, Option.bind_some, reads_default reads_strings hs.object hi,
      reads_required (reads_format hrec "self") hs.object hj hv, reads_default reads_dataset hs.object hd]

theorem reads_item : Reads d (item lib rec) (ItemDoc lib) := by
  intro j a hs h
  cases h with
  | mk hm hi hj hv hd hp =>
    simp only [item, fields, mapFields_of hm, Option.bind_some, reads_default reads_strings hs.object hi,
      reads_required (reads_format hrec "value") hs.object hj hv, reads_default reads_dataset hs.object hd,
      reads_optional reads_pattern (by rintro a ⟨⟩) hs.object hp]

theorem reads_node : Reads d (node lib rec) (NodeDoc lib) := by
  intro j a hs h
  cases h with
  | ref h =>
    simp [node, nodeStruct, fields, ref, iri, string, iriString, h]
  | layout h =>
    simp [node, nodeStruct, struct_layout h (names := ["head", "rest", "intro", "value", "dataset"]) (by decide),
      ref_layout hrec hs h]
  | node hm hh hr hi hj hv hd =>
    simp only [node, nodeStruct, fields, mapFields_of hm, Option.bind_some, reads_default reads_string hs.object hh,
      reads_default reads_string hs.object hr, reads_default reads_strings hs.object hi,
      reads_required (reads_format hrec "value") hs.object hj hv,
      reads_optional reads_dataset (by rintro a ⟨_, h, -⟩; cases h) hs.object hd]
    rfl

theorem untagged_of {o : JsonObject} {l : SLayout} (ho : SmallObj d o) (h : LayoutObj lib o l) :
    untagged (readers lib rec) (.object o) = some l := by
  have nullIri : ∀ a, ¬ IriDoc lib .null a := by rintro a ⟨h, -⟩; cases h
  have nullPat : ∀ a, ¬ PatternDoc lib .null a := by rintro a ⟨⟩
  have nullReg : ∀ a, ¬ RegExpDoc .null a := by rintro a ⟨_, h, -⟩; cases h
  have other : ∀ {ty ms h}, KindDoc lib o ty ms h → ∀ ty' ms' body, ty ≠ ty' →
      kind lib ty' ms' body (.object o) = none := fun hk ty' ms' body hne => kind_other hk.type hne ms' body
  have nob : boolLayout (.object o) = none := rfl
  simp only [untagged, readers, List.findSome?_cons, List.findSome?_nil, unitLayout, booleanLayout, numberLayout, byteStringLayout,
    textStringLayout, idLayout, productLayout, sumLayout, orderedLayout, unorderedLayout, sizedLayout, unionLayout,
    intersectionLayout, nob]
  cases h with
  | unit hk hc =>
    rw [kind_of ho hk]
    simp only [reads_default reads_const ho hc, Option.map_some]
  | boolean hk hr hd =>
    rw [other hk "unit" _ _ (by decide), kind_of ho hk]
    simp only [reads_optional reads_pattern nullPat ho hr, reads_optional reads_iri nullIri ho hd, Option.bind_some, Option.map_some]
  | number hk hr hd =>
    obtain ⟨j, hj, hd⟩ := optSome.1 hd
    rw [other hk "unit" _ _ (by decide), other hk "boolean" _ _ (by decide), kind_of ho hk]
    simp only [reads_optional reads_pattern nullPat ho hr, reads_required reads_iri ho hj hd, Option.bind_some, Option.map_some]
  | byteString hk hr hd =>
    obtain ⟨j, hj, hd⟩ := optSome.1 hd
    rw [other hk "unit" _ _ (by decide), other hk "boolean" _ _ (by decide), other hk "number" _ _ (by decide), kind_of ho hk]
    simp only [reads_optional reads_pattern nullPat ho hr, reads_required reads_iri ho hj hd, Option.bind_some, Option.map_some]
  | textString hk he hr hd =>
    rw [other hk "unit" _ _ (by decide), other hk "boolean" _ _ (by decide), other hk "number" _ _ (by decide),
      other hk "bytes" _ _ (by decide), kind_of ho hk]
    simp only [reads_optional reads_pattern nullPat ho hr, reads_optional reads_iri nullIri ho hd, reads_optional reads_regExp nullReg ho he,
      Option.bind_some, Option.map_some]
  | id hk he hr =>
    rw [other hk "unit" _ _ (by decide), other hk "boolean" _ _ (by decide), other hk "number" _ _ (by decide),
      other hk "bytes" _ _ (by decide), other hk "string" _ _ (by decide), kind_of ho hk]
    simp only [reads_optional reads_pattern nullPat ho hr, reads_optional reads_regExp nullReg ho he,
      Option.bind_some, Option.map_some]
  | record hk hf =>
    rw [other hk "unit" _ _ (by decide), other hk "boolean" _ _ (by decide), other hk "number" _ _ (by decide),
      other hk "bytes" _ _ (by decide), other hk "string" _ _ (by decide), other hk "id" _ _ (by decide), kind_of ho hk]
    have := reads_default (reads_map (le := Value.le) (key := fun k => some (Value.text k)) (K := fun k v => v = Value.text k)
      (by rintro s k rfl; rfl) (reads_field hrec)) ho (fieldsDoc_iff.2 hf)
    simp only [this, Option.map_some]
  | sum hk hv =>
    rw [other hk "unit" _ _ (by decide), other hk "boolean" _ _ (by decide), other hk "number" _ _ (by decide),
      other hk "bytes" _ _ (by decide), other hk "string" _ _ (by decide), other hk "id" _ _ (by decide),
      other hk "record" _ _ (by decide), kind_of ho hk]
    have := reads_default (reads_map (le := strLe) (key := some) (K := Eq)
      (by rintro s k rfl; rfl) (reads_variant hrec)) ho (variantsDoc_iff.2 hv)
    simp only [this, Option.map_some]
  | list hk hj hn hh ht =>
    rw [other hk "unit" _ _ (by decide), other hk "boolean" _ _ (by decide), other hk "number" _ _ (by decide),
      other hk "bytes" _ _ (by decide), other hk "string" _ _ (by decide), other hk "id" _ _ (by decide),
      other hk "record" _ _ (by decide), other hk "sum" _ _ (by decide), kind_of ho hk]
    change DefaultDoc (PatternDoc lib) (.iri rdfNil) _ _ at ht
    simp only [reads_required (reads_node hrec) ho hj hn, reads_default reads_pattern ho hh, reads_default reads_pattern ho ht,
      Option.bind_some, Option.map_some]
  | set hk hj hi =>
    rw [other hk "unit" _ _ (by decide), other hk "boolean" _ _ (by decide), other hk "number" _ _ (by decide),
      other hk "bytes" _ _ (by decide), other hk "string" _ _ (by decide), other hk "id" _ _ (by decide),
      other hk "record" _ _ (by decide), other hk "sum" _ _ (by decide), other hk "list" _ _ (by decide), kind_of ho hk]
    simp only [reads_required (reads_item hrec) ho hj hi, Option.map_some]
  | tuple hk hi =>
    rw [other hk "unit" _ _ (by decide), other hk "boolean" _ _ (by decide), other hk "number" _ _ (by decide),
      other hk "bytes" _ _ (by decide), other hk "string" _ _ (by decide), other hk "id" _ _ (by decide),
      other hk "record" _ _ (by decide), other hk "sum" _ _ (by decide), other hk "list" _ _ (by decide),
      other hk "set" _ _ (by decide), kind_of ho hk]
    simp only [reads_default (reads_vec (reads_item hrec)) ho (itemsDoc_iff.2 hi), Option.map_some]
  | union hk =>
    rw [other hk "unit" _ _ (by decide), other hk "boolean" _ _ (by decide), other hk "number" _ _ (by decide),
      other hk "bytes" _ _ (by decide), other hk "string" _ _ (by decide), other hk "id" _ _ (by decide),
      other hk "record" _ _ (by decide), other hk "sum" _ _ (by decide), other hk "list" _ _ (by decide),
      other hk "set" _ _ (by decide), other hk "tuple" _ _ (by decide), kind_of ho hk]
  | intersection hk =>
    rw [other hk "unit" _ _ (by decide), other hk "boolean" _ _ (by decide), other hk "number" _ _ (by decide),
      other hk "bytes" _ _ (by decide), other hk "string" _ _ (by decide), other hk "id" _ _ (by decide),
      other hk "record" _ _ (by decide), other hk "sum" _ _ (by decide), other hk "list" _ _ (by decide),
      other hk "set" _ _ (by decide), other hk "tuple" _ _ (by decide), other hk "union" _ _ (by decide), kind_of ho hk]

end

theorem layoutN_ok (n : Nat) : RecOk lib (layoutN lib n) n := by
  induction n with
  | zero =>
    intro o l hs
    have := hs.1
    simp [Json.depth] at this
  | succ n ih =>
    intro o l hs h
    have h1 := hs.1
    have h2 := hs.2
    simp only [Json.depth] at h1
    simp only [Json.agreed, Bool.and_eq_true] at h2
    exact untagged_of ih ⟨by omega, h2.2⟩ h

/-- A document of the grammar without numbers and tagged strings is deserialized to the definition it stands for. -/
theorem layout_of_doc {j : Json} {l : SLayout} (hn : j.agreed = true) (hN : j.noNumber = true) (h : LayoutDoc lib j l) :
    layout lib j = some l := by
  unfold layout
  rw [buffer_of_plain j hN]
  cases h with
  | bool b => rfl
  | object h => exact layoutN_ok (lib := lib) _ _ _ ⟨by omega, hn⟩ h

/-- A value of the grammar without tagged strings, and without numbers but integers of 64 bits, is deserialized to the definition
it stands for. -/
theorem layoutOfValue_of_doc {other : List Char → Json} {j : Json} {l : SLayout} (hn : j.agreed = true) (h : LayoutDoc lib j l) :
    layoutOfValue lib other j = some l := by
  unfold layoutOfValue
  rw [bufferValue_of_plain j hn]
  cases h with
  | bool b => rfl
  | object h => exact layoutN_ok (lib := lib) _ _ _ ⟨by omega, hn⟩ h

end Serde

end Verif
