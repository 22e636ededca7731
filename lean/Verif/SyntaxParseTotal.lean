import Verif.SyntaxParseMain

/-!
# The parser of layout definitions is total

It ends on every document, and panics only on the numbers of constants.
-/

set_option linter.unusedSectionVars false
set_option linter.unusedSimpArgs false

namespace Verif

mutual
/-- All the numbers of a document are decimal numerals. -/
def Json.plain : Json → Bool
  | .number s => (Number.parseXsdDecimal s).isSome
  | .array l => Json.plainList l
  | .object m => Json.plainEntries m
  | _ => true

/-- `Json.plain`, for each element of an array. -/
def Json.plainList : List Json → Bool
  | [] => true
  | j :: l => j.plain && Json.plainList l

/-- `Json.plain`, for each member of an object. -/
def Json.plainEntries : List (String × Json) → Bool
  | [] => true
  | (_, j) :: m => j.plain && Json.plainEntries m
end

/-- A result or an error; or a panic, when `p` holds. -/
def Fine (p : Prop) {ε α : Type} : Out ε α → Prop
  | .ok _ => True
  | .err _ => True
  | .panic => p
  | .fuel => False

section

variable {p : Prop} {ε ε' α β : Type}

theorem Fine.bind {x : Out ε α} {f : α → Out ε β} (h : Fine p x) (hf : ∀ a, x = .ok a → Fine p (f a)) : Fine p (x.bind f) := by
  cases x with
  | ok a => exact hf a rfl
  | err e => trivial
  | panic => exact h
  | fuel => exact h

theorem Fine.mapErr {x : Out ε α} {f : ε → ε'} (h : Fine p x) : Fine p (x.mapErr f) := by cases x <;> exact h

theorem fine_ite {c : Prop} [Decidable c] {x y : Out ε α} (hx : Fine p x) (hy : Fine p y) : Fine p (if c then x else y) := by
  split <;> assumption

theorem fine_uniqueEntry (o : JsonObject) (key : String) : Fine p (uniqueEntry o key) := by
  unfold uniqueEntry; split <;> trivial

/-- `Fine`, for a step of the parsing of an object. -/
def ObjFine (p : Prop) (m : ObjParser α) : Prop := ∀ u, Fine p (m u)

theorem ObjFine.bind {m : ObjParser α} {f : α → ObjParser β} (h : ObjFine p m) (hf : ∀ a, ObjFine p (f a)) :
    ObjFine p (m.bind f) := fun u => (h u).bind fun r _ => hf r.1 r.2

theorem ObjFine.pure (a : α) : ObjFine p (ObjParser.pure a) := fun _ => trivial

theorem ObjFine.getEntry {q : Json → Out SyntaxError α} {o : JsonObject} {key : String}
    (h : ∀ j, o.lookup key = some j → Fine p (q j)) : ObjFine p (getEntry q o key) := by
  intro u
  unfold Verif.getEntry
  rcases uniqueEntry_cases o key with ⟨h1, h2, h3⟩ | ⟨n, v, h1, h2, h3, h4⟩ | ⟨h1, h2⟩
  · rw [h1]; trivial
  · rw [h1]; exact (h v h2).bind fun _ _ => trivial
  · rw [h1]; trivial

theorem ObjFine.requireEntry {q : Json → Out SyntaxError α} {o : JsonObject} {key : String}
    (h : ∀ j, o.lookup key = some j → Fine p (q j)) : ObjFine p (requireEntry q o key) := by
  intro u
  unfold Verif.requireEntry
  rcases uniqueEntry_cases o key with ⟨h1, h2, h3⟩ | ⟨n, v, h1, h2, h3, h4⟩ | ⟨h1, h2⟩
  · rw [h1]; trivial
  · rw [h1]; exact (h v h2).bind fun _ _ => trivial
  · rw [h1]; trivial

theorem fine_requireType (o : JsonObject) : Fine p (requireType o) := by
  refine (fine_uniqueEntry o "type").bind fun e _ => ?_
  split <;> trivial

theorem ObjFine.checkType (o : JsonObject) (ty : String) : ObjFine p (checkType o ty) := fun _ =>
  (fine_requireType o).bind fun _ _ => fine_ite trivial trivial

theorem fine_checkUnused (o : JsonObject) : ∀ u, Fine p (checkUnused o u) := by
  induction o with
  | nil => intro u; trivial
  | cons e o ih =>
    intro u
    cases u with
    | nil => trivial
    | cons b u => obtain ⟨k, v⟩ := e; exact fine_ite trivial (ih u)

theorem ObjFine.run {m : ObjParser α} (o : JsonObject) (h : ObjFine p m) : Fine p (runObj o m) :=
  (h _).bind fun r _ => (fine_checkUnused o r.2).bind fun _ _ => trivial

/-! ## Leaves -/

theorem fine_string (j : Json) : Fine p (parseString j) := by cases j <;> trivial
theorem fine_bool (j : Json) : Fine p (parseBool j) := by cases j <;> trivial

theorem fine_mapM' {q : Json → Out SyntaxError α} {l : List Json} (h : ∀ j ∈ l, Fine p (q j)) : Fine p (Out.mapM' q l) := by
  induction l with
  | nil => trivial
  | cons j l ih =>
    simp only [Out.mapM']
    exact (h j (List.mem_cons_self ..)).bind fun _ _ =>
      (ih fun j hj => h j (List.mem_cons_of_mem _ hj)).bind fun _ _ => trivial

theorem fine_vec {q : Json → Out SyntaxError α} {j : Json} (h : ∀ l, j = .array l → ∀ j ∈ l, Fine p (q j)) :
    Fine p (parseVec q j) := by
  cases j with
  | array l => exact fine_mapM' (h l rfl)
  | _ => trivial

theorem fine_oneOrMany {q : Json → Out SyntaxError α} (j : Json) (h : ∀ j, Fine p (q j)) : Fine p (parseOneOrMany q j) := by
  cases j with
  | array l => exact (fine_mapM' fun j _ => h j).bind fun _ _ => trivial
  | _ => exact (h _).bind fun _ _ => trivial

theorem fine_option {q : Json → Out SyntaxError α} (j : Json) (h : ∀ j, Fine p (q j)) : Fine p (parseOption q j) := by
  cases j with
  | null => trivial
  | _ => exact (h _).bind fun _ _ => trivial

theorem fine_map {κ : Type} [DecidableEq κ] {le : κ → κ → Bool} {key : String → Out SyntaxError κ}
    {q : Json → Out SyntaxError α} {j : Json} (hk : ∀ s, Fine p (key s)) (h : ∀ o, j = .object o → ∀ e ∈ o, Fine p (q e.2)) :
    Fine p (parseMap le key q j) := by
  cases j with
  | object o =>
    refine Fine.bind ?_ fun _ _ => trivial
    replace h := h o rfl
    induction o with
    | nil => trivial
    | cons e o ih =>
      obtain ⟨k, v⟩ := e
      simp only [parseEntries]
      exact (hk k).bind fun _ _ => (h _ (List.mem_cons_self ..)).bind fun _ _ =>
        (ih fun e he => h e (List.mem_cons_of_mem _ he)).bind fun _ _ => trivial
  | _ => trivial

variable {lib : ParseLib}

theorem fine_iriString (s : String) : Fine p (parseIriString lib s) := fine_ite trivial trivial
theorem fine_iri (j : Json) : Fine p (parseIri lib j) := (fine_string j).bind fun _ _ => fine_iriString _

theorem fine_literal (o : JsonObject) : Fine p (parseLiteralValue lib o) := by
  refine ObjFine.run o (.bind (.getEntry fun j _ => fine_iri j) fun ty => .bind ?_ fun _ =>
    .bind (.requireEntry fun j _ => fine_string j) fun _ => .pure _)
  cases ty with
  | some ty => exact .pure _
  | none =>
    unfold parseLitType
    refine .bind (.requireEntry fun j _ => fine_string j) fun tag u => ?_
    show Fine p (if _ then _ else _)
    exact fine_ite trivial trivial

theorem fine_pattern (j : Json) : Fine p (parsePattern lib j) := by
  cases j with
  | string s => exact fine_ite trivial (fine_ite trivial trivial)
  | object o => exact fine_literal o
  | _ => trivial

theorem fine_quad (j : Json) : Fine p (parseQuad lib j) := by
  match j with
  | .array (s :: q :: o :: g) =>
    refine fine_ite trivial ((fine_pattern _).bind fun _ _ => (fine_pattern _).bind fun _ _ => (fine_pattern _).bind fun _ _ =>
      Fine.bind ?_ fun _ _ => trivial)
    cases g with
    | nil => trivial
    | cons g gs => exact (fine_pattern _).bind fun _ _ => trivial
  | .array [] | .array [_] | .array [_, _] => trivial
  | .null | .boolean _ | .number _ | .string _ | .object _ => trivial

theorem fine_dataset (j : Json) : Fine p (parseDataset lib j) := fine_vec fun _ _ j _ => fine_quad j

theorem fine_integer (s : List Char) : Fine p (parseInteger s) := by
  refine fine_ite trivial ?_
  split <;> trivial

theorem fine_resource (j : Json) : Fine p (parseResource lib j) := by
  cases j with
  | number s => exact fine_integer s
  | object o => exact ObjFine.run o (.bind (.requireEntry fun j _ => fine_string j) fun _ =>
      .bind (.requireEntry fun j _ => fine_iri j) fun _ => .pure _)
  | _ => trivial

/-! ### Regular expressions -/

/-- The invariant of the stack: it is not empty, and each of its elements has an alternative. -/
def StackOk (st : List RegExp.Options) : Prop := st ≠ [] ∧ ∀ os ∈ st, os ≠ []

theorem modifyTop_ok {f : RegExp → RegExp} {st : List RegExp.Options} (h : StackOk st) :
    ∃ st', RegExp.modifyTop f st = .ok st' ∧ StackOk st' := by
  match st, h with
  | [], h => exact absurd rfl h.1
  | [] :: st, h => exact absurd rfl (h.2 [] (List.mem_cons_self ..))
  | (e :: es) :: st, h =>
    refine ⟨(f e :: es) :: st, rfl, by simp, ?_⟩
    intro os hos
    rcases List.mem_cons.1 hos with rfl | hos
    · simp
    · exact h.2 os (List.mem_cons_of_mem _ hos)

theorem StackOk.push {st : List RegExp.Options} {os : RegExp.Options} (h : ∀ os ∈ st, os ≠ []) (ho : os ≠ []) :
    StackOk (os :: st) := by
  refine ⟨by simp, fun o hm => ?_⟩
  rcases List.mem_cons.1 hm with rfl | hm
  · exact ho
  · exact h o hm

theorem parseCharset_length {st : RegExp.CharsetState} {n : Bool} {s : RangeSet} {cs : List Nat} {r : RangeSet × List Nat}
    (h : RegExp.parseCharset st n s cs = .ok r) : r.2.length < cs.length := by
  fun_induction RegExp.parseCharset st n s cs <;> simp_all
  all_goals first | omega | skip
  all_goals (obtain rfl := h; simp)

theorem parseLoop_fine {n : Nat} : ∀ {st : List RegExp.Options} {cs : List Nat}, cs.length ≤ n → StackOk st →
    (∃ e, RegExp.parseLoop n st cs = .err e) ∨ ∃ st', RegExp.parseLoop n st cs = .ok st' ∧ StackOk st' := by
  induction n with
  | zero =>
    intro st cs hl hs
    cases cs with
    | nil => exact .inr ⟨st, rfl, hs⟩
    | cons c cs => simp at hl
  | succ n ih =>
    intro st cs hl hs
    cases cs with
    | nil => exact .inr ⟨st, rfl, hs⟩
    | cons c cs =>
      have hl' : cs.length ≤ n := by simpa using hl
      have top : ∀ {f : RegExp → RegExp} {st : List RegExp.Options} {cs : List Nat}, cs.length ≤ n → StackOk st →
          (∃ e, (RegExp.modifyTop f st).bind (fun st => RegExp.parseLoop n st cs) = .err e) ∨
            ∃ st', (RegExp.modifyTop f st).bind (fun st => RegExp.parseLoop n st cs) = .ok st' ∧ StackOk st' := by
        intro f st cs hl hs
        obtain ⟨st', h1, h2⟩ := modifyTop_ok (f := f) hs
        rw [h1]
        exact ih hl h2
      rw [RegExp.parseLoop.eq_def]
      simp only [Out.bind_eq]
      split
      · exact ih hl' (.push hs.2 (by simp))
      split
      · match st, hs with
        | [], hs => exact absurd rfl hs.1
        | os :: st, hs =>
          simp only
          split
          · exact .inl ⟨_, rfl⟩
          · rename_i he
            refine top hl' ⟨by simpa using he, fun o ho => hs.2 o (List.mem_cons_of_mem _ ho)⟩
      split
      · match st, hs with
        | [], hs => exact absurd rfl hs.1
        | os :: st, hs =>
          exact ih hl' (.push (fun o ho => hs.2 o (List.mem_cons_of_mem _ ho)) (by simp))
      split
      · split
        · exact .inl ⟨_, rfl⟩
        · rename_i h
          have := parseCharset_length h
          exact top (by simp only at this; omega) hs
      split
      · split
        · exact .inl ⟨_, rfl⟩
        · exact top (by simp at hl'; omega) hs
      split
      · exact top hl' hs
      split
      · exact top hl' hs
      split
      · exact top hl' hs
      · exact top hl' hs

/-- Parsing a regular expression ends and does not panic. -/
theorem RegExp.parse_total (s : List Nat) : (∃ e, RegExp.parse s = .ok e) ∨ ∃ e, RegExp.parse s = .err e := by
  unfold RegExp.parse
  rcases parseLoop_fine (n := s.length) (st := [[RegExp.empty]]) (cs := s) (Nat.le_refl _)
    ⟨by simp, by simp⟩ with ⟨e, h⟩ | ⟨st, h, hs⟩
  · rw [h]; exact .inr ⟨e, rfl⟩
  · rw [h]
    match st, hs with
    | [], hs => exact absurd rfl hs.1
    | [os], _ => exact .inl ⟨_, rfl⟩
    | _ :: _ :: _, _ => exact .inr ⟨_, rfl⟩

theorem fine_regExp (j : Json) : Fine p (parseRegExp j) := by
  refine (fine_string j).bind fun s _ => Fine.mapErr ?_
  rcases RegExp.parse_total (s.toList.map RegExp.charNumber) with ⟨e, h⟩ | ⟨e, h⟩ <;> rw [h] <;> trivial

/-! ### Constants -/

mutual
theorem fine_toValue (j : Json) (h : p ∨ j.plain = true) : Fine p j.toValue := by
  match j with
  | .null | .boolean _ | .string _ => simp only [Json.toValue]; trivial
  | .number s =>
    simp only [Json.toValue, Number.ofJson]
    cases hs : Number.parseXsdDecimal s with
    | some n => trivial
    | none =>
      rcases h with h | h
      · exact h
      · simp [Json.plain, hs] at h
  | .array l =>
    simp only [Json.toValue]
    exact (fine_toValues l (by simpa only [Json.plain] using h)).bind fun _ _ => trivial
  | .object m =>
    simp only [Json.toValue]
    exact (fine_toEntries m (by simpa only [Json.plain] using h)).bind fun _ _ => trivial

theorem fine_toValues (l : List Json) (h : p ∨ Json.plainList l = true) : Fine p (Json.toValues l) := by
  match l with
  | [] => simp only [Json.toValues]; trivial
  | j :: l =>
    simp only [Json.toValues]
    simp only [Json.plainList, Bool.and_eq_true] at h
    exact (fine_toValue j (h.imp_right And.left)).bind fun _ _ => (fine_toValues l (h.imp_right And.right)).bind fun _ _ => trivial

theorem fine_toEntries (m : List (String × Json)) (h : p ∨ Json.plainEntries m = true) : Fine p (Json.toEntries m) := by
  match m with
  | [] => simp only [Json.toEntries]; trivial
  | (k, j) :: m =>
    simp only [Json.toEntries]
    simp only [Json.plainEntries, Bool.and_eq_true] at h
    exact (fine_toValue j (h.imp_right And.left)).bind fun _ _ => (fine_toEntries m (h.imp_right And.right)).bind fun _ _ => trivial
end

theorem fine_const (j : Json) (h : p ∨ j.plain = true) : Fine p (parseConst j) := (fine_toValue j h).mapErr

/-! ## Layouts -/

theorem plain_entries {o : JsonObject} (h : p ∨ Json.plainEntries o = true) {e : String × Json} (he : e ∈ o) :
    p ∨ e.2.plain = true := by
  refine h.imp_right fun h => ?_
  clear * - h he
  induction o with
  | nil => cases he
  | cons e' o ih =>
    obtain ⟨k, j⟩ := e'
    simp only [Json.plainEntries, Bool.and_eq_true] at h
    rcases List.mem_cons.1 he with rfl | he
    · exact h.1
    · exact ih he h.2

theorem plain_list {l : List Json} (h : p ∨ Json.plainList l = true) {j : Json} (he : j ∈ l) : p ∨ j.plain = true := by
  refine h.imp_right fun h => ?_
  clear * - h he
  induction l with
  | nil => cases he
  | cons e' o ih =>
    simp only [Json.plainList, Bool.and_eq_true] at h
    rcases List.mem_cons.1 he with rfl | he
    · exact h.1
    · exact ih he h.2

theorem plain_lookup {o : JsonObject} (h : p ∨ Json.plainEntries o = true) {k : String} {j : Json} (hj : o.lookup k = some j) :
    p ∨ j.plain = true := plain_entries h (mem_of_lookup_obj hj)

theorem fine_header (o : JsonObject) : ObjFine p (parseHeader lib o) :=
  .bind (.getEntry fun j _ => fine_iri j) fun _ =>
  .bind (.getEntry fun _ _ => fine_map (fun _ => trivial) fun _ _ _ _ => fine_iri _) fun _ =>
  .bind (.getEntry fun j _ => fine_iri j) fun _ =>
  .bind (.getEntry fun j _ => fine_oneOrMany j fine_string) fun _ =>
  .bind (.getEntry fun j _ => fine_oneOrMany j fine_string) fun _ =>
  .bind (.getEntry fun j _ => fine_dataset j) fun _ =>
  .bind (.getEntry fun _ _ => fine_map fine_iriString fun _ _ _ _ => fine_resource _) fun _ => .pure _

/-- The parser of nested layouts is fine on the documents the depth of which is at most `d`. -/
def RecFine (p : Prop) (rec : JsonObject → Out SyntaxError SLayout) (d : Nat) : Prop :=
  ∀ o, Json.depthEntries o + 1 ≤ d → (p ∨ Json.plainEntries o = true) → Fine p (rec o)

variable {rec : JsonObject → Out SyntaxError SLayout} {d : Nat}

theorem fine_ref (hr : RecFine p rec d) (j : Json) (hd : j.depth ≤ d) (hp : p ∨ j.plain = true) : Fine p (parseRef lib rec j) := by
  cases j with
  | string s => exact (fine_iriString s).bind fun _ _ => trivial
  | object o => exact (hr o hd hp).bind fun _ _ => trivial
  | _ => trivial

theorem fine_format (hr : RecFine p rec d) (dflt : String) (j : Json) (hd : j.depth ≤ d) (hp : p ∨ j.plain = true) :
    Fine p (parseFormat lib rec dflt j) := by
  cases j with
  | string s => exact (fine_iriString s).bind fun _ _ => trivial
  | object o =>
    refine fine_ite ((hr o hd hp).bind fun _ _ => trivial) ?_
    simp only [Json.depth] at hd
    exact ObjFine.run o (.bind (.requireEntry fun j hj => fine_ref hr j (Nat.le_trans (depth_lookup hj) (by omega))
      (plain_lookup hp hj)) fun _ => .bind (.getEntry fun j _ => fine_oneOrMany j fine_pattern) fun _ =>
      .bind (.getEntry fun j _ => fine_option j fun j => fine_option j fine_pattern) fun _ => .pure _)
  | _ => trivial

theorem fine_field (hr : RecFine p rec d) (j : Json) (hd : j.depth ≤ d) (hp : p ∨ j.plain = true) :
    Fine p (parseField lib rec j) := by
  cases j with
  | object o =>
    simp only [Json.depth] at hd
    exact ObjFine.run o (.bind (.getEntry fun j _ => fine_oneOrMany j fine_string) fun _ =>
      .bind (.requireEntry fun j hj => fine_format hr _ j (Nat.le_trans (depth_lookup hj) (by omega)) (plain_lookup hp hj)) fun _ =>
      .bind (.getEntry fun j _ => fine_dataset j) fun _ => .bind (.getEntry fun j _ => fine_pattern j) fun _ =>
      .bind (.getEntry fun j _ => fine_bool j) fun _ => .pure _)
  | _ => trivial

theorem fine_variant (hr : RecFine p rec d) (j : Json) (hd : j.depth ≤ d) (hp : p ∨ j.plain = true) :
    Fine p (parseVariant lib rec j) := by
  cases j with
  | object o =>
    simp only [Json.depth] at hd
    exact ObjFine.run o (.bind (.getEntry fun j _ => fine_oneOrMany j fine_string) fun _ =>
      .bind (.requireEntry fun j hj => fine_format hr _ j (Nat.le_trans (depth_lookup hj) (by omega)) (plain_lookup hp hj)) fun _ =>
      .bind (.getEntry fun j _ => fine_dataset j) fun _ => .pure _)
  | _ => trivial

theorem fine_item (hr : RecFine p rec d) (j : Json) (hd : j.depth ≤ d) (hp : p ∨ j.plain = true) :
    Fine p (parseItem lib rec j) := by
  cases j with
  | object o =>
    simp only [Json.depth] at hd
    exact ObjFine.run o (.bind (.getEntry fun j _ => fine_oneOrMany j fine_string) fun _ =>
      .bind (.requireEntry fun j hj => fine_format hr _ j (Nat.le_trans (depth_lookup hj) (by omega)) (plain_lookup hp hj)) fun _ =>
      .bind (.getEntry fun j _ => fine_dataset j) fun _ => .bind (.getEntry fun j _ => fine_pattern j) fun _ => .pure _)
  | _ => trivial

theorem fine_node (hr : RecFine p rec d) (j : Json) (hd : j.depth ≤ d) (hp : p ∨ j.plain = true) :
    Fine p (parseNode lib rec j) := by
  cases j with
  | string s => exact (fine_iriString s).bind fun _ _ => trivial
  | object o =>
    refine fine_ite ((hr o hd hp).bind fun _ _ => trivial) ?_
    simp only [Json.depth] at hd
    exact ObjFine.run o (.bind (.getEntry fun j _ => fine_string j) fun _ => .bind (.getEntry fun j _ => fine_string j) fun _ =>
      .bind (.getEntry fun j _ => fine_oneOrMany j fine_string) fun _ =>
      .bind (.requireEntry fun j hj => fine_format hr _ j (Nat.le_trans (depth_lookup hj) (by omega)) (plain_lookup hp hj)) fun _ =>
      .bind (.getEntry fun j _ => fine_dataset j) fun _ => .pure _)
  | _ => trivial

theorem Fine.kind {ty : String} {o : JsonObject} {f : LayoutHeader → ObjParser α} (h : ∀ h, ObjFine p (f h)) :
    Fine p (runObj o ((Verif.checkType o ty).bind fun _ => (parseHeader lib o).bind f)) :=
  ObjFine.run o (.bind (.checkType o ty) fun _ => .bind (fine_header o) h)

theorem fine_kind (hr : RecFine p rec d) (ty : String) (o : JsonObject) (hd : Json.depthEntries o ≤ d)
    (hp : p ∨ Json.plainEntries o = true) : Fine p (kindParser lib rec ty o) := by
  unfold kindParser
  refine fine_ite ?_ (fine_ite ?_ (fine_ite ?_ (fine_ite ?_ (fine_ite ?_ (fine_ite ?_ (fine_ite ?_ (fine_ite ?_ (fine_ite ?_
    (fine_ite ?_ (fine_ite ?_ (fine_ite ?_ (fine_ite ?_ trivial))))))))))))
  · exact .kind fun _ => .bind (.getEntry fun j _ => fine_regExp j) fun _ => .bind (.getEntry fun j _ => fine_pattern j) fun _ => .pure _
  · exact .kind fun _ => .bind (.getEntry fun j hj => fine_const j (plain_lookup hp hj)) fun _ => .pure _
  · exact .kind fun _ => .bind (.getEntry fun j _ => fine_pattern j) fun _ => .bind (.getEntry fun j _ => fine_iri j) fun _ => .pure _
  · exact .kind fun _ => .bind (.getEntry fun j _ => fine_pattern j) fun _ => .bind (.requireEntry fun j _ => fine_iri j) fun _ => .pure _
  · exact .kind fun _ => .bind (.getEntry fun j _ => fine_pattern j) fun _ => .bind (.requireEntry fun j _ => fine_iri j) fun _ => .pure _
  · exact .kind fun _ => .bind (.getEntry fun j _ => fine_regExp j) fun _ => .bind (.getEntry fun j _ => fine_pattern j) fun _ =>
      .bind (.getEntry fun j _ => fine_iri j) fun _ => .pure _
  · refine ObjFine.run o (.bind (.checkType o _) fun _ => .bind (.getEntry fun j hj => fine_map (fun _ => trivial) fun o' ho' e he => ?_)
      fun _ => .bind (fine_header o) fun _ => .pure _)
    subst ho'
    have h1 := depth_lookup hj
    have h2 := depth_entries he
    simp only [Json.depth] at h1
    exact fine_field hr _ (by omega) (plain_entries (plain_lookup hp hj) he)
  · refine .kind fun _ => .bind (.getEntry fun j hj => fine_map (fun _ => trivial) fun o' ho' e he => ?_) fun _ => .pure _
    subst ho'
    have h1 := depth_lookup hj
    have h2 := depth_entries he
    simp only [Json.depth] at h1
    exact fine_variant hr _ (by omega) (plain_entries (plain_lookup hp hj) he)
  · exact .kind fun _ => .bind (.requireEntry fun j hj => fine_node hr j (Nat.le_trans (depth_lookup hj) hd) (plain_lookup hp hj))
      fun _ => .bind (.getEntry fun j _ => fine_pattern j) fun _ => .bind (.getEntry fun j _ => fine_pattern j) fun _ => .pure _
  · exact .kind fun _ => .bind (.requireEntry fun j hj => fine_item hr j (Nat.le_trans (depth_lookup hj) hd) (plain_lookup hp hj))
      fun _ => .pure _
  · refine .kind fun _ => .bind (.getEntry fun j hj => fine_vec fun l hl e he => ?_) fun _ => .pure _
    subst hl
    have h1 := depth_lookup hj
    have h2 := depth_list he
    simp only [Json.depth] at h1
    exact fine_item hr _ (by omega) (plain_list (plain_lookup hp hj) he)
  · exact .kind fun _ => .pure _
  · exact .kind fun _ => .pure _

theorem fine_layoutObject (n : Nat) : RecFine p (parseLayoutObject lib n) n := by
  induction n with
  | zero => intro o h; omega
  | succ n ih =>
    intro o ho hp
    exact (fine_requireType o).bind fun ty _ => fine_kind ih ty.2 o (by omega) hp

theorem fine_layout (j : Json) (hp : p ∨ j.plain = true) : Fine p (parseLayout lib j) := by
  cases j with
  | object o => exact fine_layoutObject _ o (Nat.le_refl _) hp
  | _ => trivial

end

end Verif
