import Verif.SyntaxDoc
import Mathlib.Data.List.Nodup

/-!
# The parser of layout definitions follows the grammar
-/

set_option linter.unusedSectionVars false
set_option linter.unusedSimpArgs false

namespace Verif

/-! ## Members of an object -/

/-- The names of the members. -/
def keysOf (o : JsonObject) : List String := o.map Prod.fst

/-- The flags when the members named in `ks` have been used. -/
def flags (o : JsonObject) (ks : List String) : List Bool := o.map fun e => decide (e.1 ∉ ks)

/-- At most one member has this name. -/
def Uniq (o : JsonObject) (k : String) : Prop := (keysOf o).count k ≤ 1

theorem entriesOf_nil {key : String} {o : JsonObject} : ∀ i, entriesOf key i o = [] ↔ key ∉ keysOf o := by
  induction o with
  | nil => simp [entriesOf, keysOf]
  | cons e o ih =>
    intro i
    obtain ⟨k, v⟩ := e
    simp only [entriesOf, keysOf, List.map_cons, List.mem_cons, not_or]
    split
    · rename_i h; subst h; simp
    · rename_i h; rw [ih]; simp [keysOf, Ne.symm h]

theorem entriesOf_length {key : String} {o : JsonObject} : ∀ i, (entriesOf key i o).length = (keysOf o).count key := by
  induction o with
  | nil => simp [entriesOf, keysOf]
  | cons e o ih =>
    intro i
    obtain ⟨k, v⟩ := e
    simp only [entriesOf, keysOf, List.map_cons, List.count_cons]
    split
    · rename_i h; subst h; simp [ih, keysOf]
    · rename_i h; simp [ih, keysOf, h]

theorem entriesOf_single {key : String} {o : JsonObject} : ∀ {i n : Nat} {v : Json}, entriesOf key i o = [(n, v)] →
    o.lookup key = some v ∧ i ≤ n ∧ ∀ ks, key ∉ ks → (flags o ks).set (n - i) false = flags o (key :: ks) := by
  induction o with
  | nil => simp [entriesOf]
  | cons e o ih =>
    intro i n v h
    obtain ⟨k, w⟩ := e
    simp only [entriesOf] at h
    split at h
    · rename_i hk
      subst hk
      simp only [List.cons.injEq, Prod.mk.injEq] at h
      obtain ⟨⟨rfl, rfl⟩, h⟩ := h
      have hn := (entriesOf_nil _).1 h
      refine ⟨by simp [List.lookup], Nat.le_refl _, ?_⟩
      intro ks _
      simp only [flags, List.map_cons, Nat.sub_self, List.set_cons_zero, List.mem_cons, true_or, not_true_eq_false,
        decide_false, List.cons.injEq, true_and]
      apply List.map_congr_left
      intro e he
      have : e.1 ≠ k := fun hc => hn (List.mem_map.2 ⟨e, he, hc⟩)
      simp [this]
    · rename_i hk
      obtain ⟨h1, h2, h3⟩ := ih h
      have hkb : (key == k) = false := by simpa [beq_eq_false_iff_ne] using fun hc : key = k => hk hc.symm
      refine ⟨by simp only [List.lookup_cons, hkb]; exact h1, by omega, ?_⟩
      intro ks hks
      have : n - i = (n - (i + 1)) + 1 := by omega
      rw [this]
      have h3' := h3 ks hks
      simp only [flags] at h3'
      simp only [flags, List.map_cons, List.set_cons_succ, h3']
      simp only [List.mem_cons, hk, false_or]

theorem lookup_none {key : String} {o : JsonObject} : o.lookup key = none ↔ key ∉ keysOf o := by
  simp only [List.lookup_eq_none_iff, keysOf, List.mem_map, not_exists, not_and]
  constructor
  · intro h e he hc
    have := h e he
    simp [hc] at this
  · intro h e he
    have := h e he
    simpa [beq_eq_false_iff_ne] using fun hc : key = e.1 => this hc.symm

theorem uniqueEntry_none {o : JsonObject} {key : String} : uniqueEntry o key = .ok none ↔ o.lookup key = none := by
  rw [lookup_none, ← entriesOf_nil 0]
  unfold uniqueEntry
  split <;> simp_all

theorem uniqueEntry_cases (o : JsonObject) (key : String) :
    (uniqueEntry o key = .ok none ∧ o.lookup key = none ∧ Uniq o key) ∨
    (∃ n v, uniqueEntry o key = .ok (some (n, v)) ∧ o.lookup key = some v ∧ Uniq o key ∧
      ∀ ks, key ∉ ks → (flags o ks).set n false = flags o (key :: ks)) ∨
    (uniqueEntry o key = .err (.duplicateEntry key) ∧ ¬ Uniq o key) := by
  have hl := entriesOf_length (key := key) (o := o) 0
  unfold uniqueEntry
  match h : entriesOf key 0 o with
  | [] =>
    left
    refine ⟨rfl, lookup_none.2 ((entriesOf_nil 0).1 h), ?_⟩
    unfold Uniq; rw [← hl, h]; simp
  | [(n, v)] =>
    right; left
    obtain ⟨h1, _, h3⟩ := entriesOf_single h
    refine ⟨n, v, rfl, h1, ?_, h3⟩
    unfold Uniq; rw [← hl, h]; simp
  | a :: b :: l =>
    right; right
    refine ⟨rfl, ?_⟩
    unfold Uniq; rw [← hl, h]; simp

/-! ## Steps -/

/-- The step `m` uses the members of `ks'` that are not in `ks`, and returns the values that satisfy `P`. -/
def Reads {α : Type} (o : JsonObject) (ks : List String) (m : ObjParser α) (ks' : List String) (P : α → Prop) : Prop :=
  ks ⊆ ks' ∧ ((∀ k ∈ ks, Uniq o k) → ∀ a u, m (flags o ks) = .ok (a, u) ↔ u = flags o ks' ∧ (∀ k ∈ ks', Uniq o k) ∧ P a)

theorem Reads.congr {α : Type} {o : JsonObject} {ks ks' : List String} {m : ObjParser α} {P Q : α → Prop}
    (h : Reads o ks m ks' P) (he : ∀ a, P a ↔ Q a) : Reads o ks m ks' Q := by
  have : P = Q := funext fun a => propext (he a)
  exact this ▸ h

theorem reads_pure {α : Type} (o : JsonObject) (ks : List String) (a : α) :
    Reads o ks (ObjParser.pure a) ks (fun b => b = a) := by
  refine ⟨fun _ h => h, fun hu b u => ?_⟩
  simp only [ObjParser.pure, Out.ok.injEq, Prod.mk.injEq]
  constructor
  · rintro ⟨rfl, rfl⟩; exact ⟨rfl, hu, rfl⟩
  · rintro ⟨rfl, _, rfl⟩; exact ⟨rfl, rfl⟩

theorem Reads.bind {α β : Type} {o : JsonObject} {ks ks₁ ks₂ : List String} {m : ObjParser α} {f : α → ObjParser β}
    {P : α → Prop} {Q : α → β → Prop} (h : Reads o ks m ks₁ P) (hf : ∀ a, Reads o ks₁ (f a) ks₂ (Q a))
    (hs : ks₁ ⊆ ks₂) :
    Reads o ks (m.bind f) ks₂ (fun b => ∃ a, P a ∧ Q a b) := by
  refine ⟨fun k hk => hs (h.1 hk), fun hu b u => ?_⟩
  simp only [ObjParser.bind, Out.bind_eq_ok]
  constructor
  · rintro ⟨⟨a, u'⟩, h1, h2⟩
    obtain ⟨rfl, hu', hP⟩ := (h.2 hu a u').1 h1
    obtain ⟨rfl, hu'', hQ⟩ := ((hf a).2 hu' b u).1 h2
    exact ⟨rfl, hu'', a, hP, hQ⟩
  · rintro ⟨rfl, hu'', a, hP, hQ⟩
    have hu' : ∀ k ∈ ks₁, Uniq o k := fun k hk => hu'' k (hs hk)
    exact ⟨(a, flags o ks₁), (h.2 hu a _).2 ⟨rfl, hu', hP⟩, ((hf a).2 hu' b _).2 ⟨rfl, hu'', hQ⟩⟩

theorem reads_getEntry {α : Type} {o : JsonObject} {ks : List String} {p : Json → Out SyntaxError α} {key : String}
    {D : Json → α → Prop} (hk : key ∉ ks) (hp : ∀ j, o.lookup key = some j → ∀ a, p j = .ok a ↔ D j a) :
    Reads o ks (getEntry p o key) (key :: ks) (OptDoc D (o.lookup key)) := by
  refine ⟨fun _ h => List.mem_cons_of_mem _ h, fun hu a u => ?_⟩
  unfold getEntry
  rcases uniqueEntry_cases o key with ⟨h1, h2, h3⟩ | ⟨n, v, h1, h2, h3, h4⟩ | ⟨h1, h2⟩
  · rw [h1, h2]
    have hf : flags o (key :: ks) = flags o ks := by
      rw [lookup_none] at h2
      apply List.map_congr_left
      intro e he
      have : e.1 ≠ key := fun hc => h2 (List.mem_map.2 ⟨e, he, hc⟩)
      simp [this]
    rw [hf]
    simp only [Out.bind_ok, Out.ok.injEq, Prod.mk.injEq]
    cases a with
    | none =>
      simp only [true_and, OptDoc, and_true, List.mem_cons, forall_eq_or_imp]
      exact ⟨fun h => ⟨h.symm, h3, hu⟩, fun h => h.1.symm⟩
    | some a => simp [OptDoc]
  · rw [h1, h2]
    simp only [Out.bind_ok, Out.bind_eq_ok, Out.ok.injEq, Prod.mk.injEq]
    cases a with
    | none => simp [OptDoc]
    | some a =>
      simp only [Option.some.injEq, OptDoc, h4 ks hk]
      constructor
      · rintro ⟨t, ht, rfl, rfl⟩
        refine ⟨rfl, ?_, (hp v h2 _).1 ht⟩
        simpa [h3] using hu
      · rintro ⟨rfl, _, hd⟩
        exact ⟨a, (hp v h2 _).2 hd, rfl, rfl⟩
  · rw [h1]
    constructor
    · intro h; simp at h
    · rintro ⟨_, h, _⟩; exact absurd (h key (List.mem_cons_self ..)) h2

theorem reads_requireEntry {α : Type} {o : JsonObject} {ks : List String} {p : Json → Out SyntaxError α} {key : String}
    {D : Json → α → Prop} (hk : key ∉ ks) (hp : ∀ j, o.lookup key = some j → ∀ a, p j = .ok a ↔ D j a) :
    Reads o ks (requireEntry p o key) (key :: ks) (fun a => OptDoc D (o.lookup key) (some a)) := by
  refine ⟨fun _ h => List.mem_cons_of_mem _ h, fun hu a u => ?_⟩
  unfold requireEntry
  rcases uniqueEntry_cases o key with ⟨h1, h2, h3⟩ | ⟨n, v, h1, h2, h3, h4⟩ | ⟨h1, h2⟩
  · rw [h1, h2]
    simp [OptDoc]
  · rw [h1, h2]
    simp only [Out.bind_ok, Out.bind_eq_ok, Out.ok.injEq, Prod.mk.injEq, OptDoc, h4 ks hk]
    constructor
    · rintro ⟨t, ht, rfl, rfl⟩
      refine ⟨rfl, ?_, (hp v h2 _).1 ht⟩
      simpa [h3] using hu
    · rintro ⟨rfl, _, hd⟩
      exact ⟨a, (hp v h2 _).2 hd, rfl, rfl⟩
  · rw [h1]
    constructor
    · intro h; simp at h
    · rintro ⟨_, h, _⟩; exact absurd (h key (List.mem_cons_self ..)) h2

theorem requireType_ok {o : JsonObject} {r : Nat × String} : requireType o = .ok r ↔
    uniqueEntry o "type" = .ok (some (r.1, .string r.2)) := by
  unfold requireType
  rcases uniqueEntry_cases o "type" with ⟨h1, h2, h3⟩ | ⟨n, v, h1, h2, h3, h4⟩ | ⟨h1, h2⟩
  · rw [h1]; simp
  · rw [h1]; obtain ⟨i, s⟩ := r; cases v <;> simp
  · rw [h1]; simp

theorem reads_checkType {o : JsonObject} {ty : String} :
    Reads o [] (checkType o ty) ["type"] (fun _ => o.lookup "type" = some (.string ty)) := by
  refine ⟨fun _ h => absurd h (List.not_mem_nil), fun hu a u => ?_⟩
  unfold checkType
  rcases uniqueEntry_cases o "type" with ⟨h1, h2, h3⟩ | ⟨n, v, h1, h2, h3, h4⟩ | ⟨h1, h2⟩
  · simp [requireType, h1, h2]
  · unfold requireType
    rw [h1, h2]
    cases v with
    | string s =>
      simp only [Out.bind_ok]
      split
      · rename_i he
        subst he
        simp only [h4 [] (by simp), Out.ok.injEq, Prod.mk.injEq, true_and, and_true]
        constructor
        · intro h; exact ⟨h.symm, by simpa using h3⟩
        · intro h; exact h.1.symm
      · rename_i he
        simp [he]
    | _ => simp
  · unfold requireType
    rw [h1]
    constructor
    · intro h; simp at h
    · rintro ⟨_, h, _⟩; exact absurd (h "type" (List.mem_cons_self ..)) h2

theorem checkUnused_flags {o : JsonObject} {ks : List String} : checkUnused o (flags o ks) = .ok () ↔ ∀ e ∈ o, e.1 ∈ ks := by
  induction o with
  | nil => simp [checkUnused]
  | cons e o ih =>
    obtain ⟨k, v⟩ := e
    simp only [flags, List.map_cons, checkUnused, decide_eq_true_eq, List.mem_cons, forall_eq_or_imp]
    split
    · rename_i h; simp [h]
    · rename_i h
      have := Classical.not_not.1 h
      simp only [this, true_and]
      exact ih

/-- The object has been read completely. -/
theorem runObj_ok {α : Type} {o : JsonObject} {m : ObjParser α} {ks : List String} {P : α → Prop}
    (h : Reads o [] m ks P) (a : α) : runObj o m = .ok a ↔ Members o ks ∧ P a := by
  have hf : (o.map fun _ => true) = flags o [] := by simp [flags]
  unfold runObj
  rw [hf]
  simp only [Out.bind_eq_ok, Out.ok.injEq]
  constructor
  · rintro ⟨⟨b, u⟩, h1, ⟨⟩, h2, rfl⟩
    obtain ⟨rfl, hu, hP⟩ := (h.2 (by simp) b u).1 h1
    have hks := checkUnused_flags.1 h2
    refine ⟨⟨?_, hks⟩, hP⟩
    rw [List.nodup_iff_count_le_one]
    intro k
    by_cases hk : k ∈ keysOf o
    · obtain ⟨e, he, rfl⟩ := List.mem_map.1 hk
      exact hu _ (hks e he)
    · have : (keysOf o).count k = 0 := List.count_eq_zero.2 hk
      simp only [keysOf] at this
      omega
  · rintro ⟨⟨hn, hks⟩, hP⟩
    refine ⟨(a, flags o ks), (h.2 (by simp) a _).2 ⟨rfl, ?_, hP⟩, (), checkUnused_flags.2 hks, rfl⟩
    intro k _
    exact List.nodup_iff_count_le_one.1 hn k

theorem Members.congr {o : JsonObject} {ks ks' : List String} (h : ∀ k, k ∈ ks ↔ k ∈ ks') : Members o ks ↔ Members o ks' := by
  simp [Members, h]

theorem default_getD {α : Type} {P : Json → α → Prop} {d : α} {v : Option Json} {a : α} :
    (∃ x, OptDoc P v x ∧ a = x.getD d) ↔ DefaultDoc P d v a := by
  cases v with
  | none =>
    simp only [DefaultDoc]
    constructor
    · rintro ⟨x, hx, rfl⟩
      cases x with
      | none => rfl
      | some x => exact hx.elim
    · rintro rfl; exact ⟨none, trivial, rfl⟩
  | some j =>
    simp only [DefaultDoc]
    constructor
    · rintro ⟨x, hx, rfl⟩
      cases x with
      | none => exact hx.elim
      | some x => exact hx
    · intro h; exact ⟨some a, h, rfl⟩

/-- A step that reads a member with a default value. -/
theorem Reads.bindD {α β : Type} {o : JsonObject} {ks ks₁ ks₂ : List String} {m : ObjParser (Option α)} {f : α → ObjParser β}
    {d : α} {D : Json → α → Prop} {v : Option Json} {Q : α → β → Prop} (h : Reads o ks m ks₁ (OptDoc D v))
    (hf : ∀ a, Reads o ks₁ (f a) ks₂ (Q a)) (hs : ks₁ ⊆ ks₂) :
    Reads o ks (m.bind fun x => f (x.getD d)) ks₂ (fun b => ∃ a, DefaultDoc D d v a ∧ Q a b) := by
  refine (Reads.bind (Q := fun x b => Q (x.getD d) b) h (fun x => hf _) hs).congr fun b => ?_
  constructor
  · rintro ⟨x, hx, hq⟩
    exact ⟨_, default_getD.1 ⟨x, hx, rfl⟩, hq⟩
  · rintro ⟨a, ha, hq⟩
    obtain ⟨x, hx, rfl⟩ := default_getD.2 ha
    exact ⟨x, hx, hq⟩

/-! ## Leaves -/

theorem parseString_ok {j : Json} {s : String} : parseString j = .ok s ↔ StringDoc j s := by
  cases j <;> simp [parseString, StringDoc]

theorem parseBool_ok {j : Json} {b : Bool} : parseBool j = .ok b ↔ BoolDoc j b := by
  cases j <;> simp [parseBool, BoolDoc]

theorem parseVec_ok {α : Type} {p : Json → Out SyntaxError α} {P : Json → α → Prop} {j : Json} {l : List α}
    (hp : ∀ js, j = .array js → ∀ i ∈ js, ∀ a, p i = .ok a ↔ P i a) : parseVec p j = .ok l ↔ ListDoc P j l := by
  cases j with
  | array js =>
    simp only [parseVec, ListDoc, Out.mapM'_eq_ok, Json.array.injEq, exists_eq_left']
    constructor
    · intro h
      exact ((List.forall₂_and_left (p := (· ∈ js)) js l).2 ⟨fun _ h => h, h⟩).imp fun i a h => (hp js rfl i h.1 a).1 h.2
    · intro h
      exact ((List.forall₂_and_left (p := (· ∈ js)) js l).2 ⟨fun _ h => h, h⟩).imp fun i a h => (hp js rfl i h.1 a).2 h.2
  | _ => simp [parseVec, ListDoc]

theorem parseOneOrMany_ok {α : Type} {p : Json → Out SyntaxError α} {P : Json → α → Prop} {j : Json} {x : OneOrMany α}
    (hp : ∀ i a, p i = .ok a ↔ P i a) : parseOneOrMany p j = .ok x ↔ OneOrManyDoc P j x := by
  have hm : ∀ js l, Out.mapM' p js = .ok l ↔ List.Forall₂ P js l := by
    intro js l
    simp only [Out.mapM'_eq_ok, hp]
  cases x with
  | one a =>
    cases j <;> simp [parseOneOrMany, OneOrManyDoc, Out.bind_eq_ok, hp]
  | many l =>
    cases j <;> simp [parseOneOrMany, OneOrManyDoc, Out.bind_eq_ok, ListDoc, hm]

theorem parseEntries_ok {κ α : Type} {key : String → Out SyntaxError κ} {p : Json → Out SyntaxError α}
    {K : String → κ → Prop} {P : Json → α → Prop} {o : JsonObject} {l : List (κ × α)}
    (hk : ∀ s k, key s = .ok k ↔ K s k) (hp : ∀ e ∈ o, ∀ a, p e.2 = .ok a ↔ P e.2 a) :
    parseEntries key p o = .ok l ↔ List.Forall₂ (fun e r => K e.1 r.1 ∧ P e.2 r.2) o l := by
  induction o generalizing l with
  | nil => cases l <;> simp [parseEntries]
  | cons e o ih =>
    obtain ⟨s, v⟩ := e
    have ih' := fun l => @ih l fun e he => hp e (List.mem_cons_of_mem _ he)
    have hp' := hp (s, v) (List.mem_cons_self ..)
    simp only [parseEntries, Out.bind_eq_ok, hk, hp', ih', Out.ok.injEq]
    constructor
    · rintro ⟨k, h1, a, h2, l', h3, rfl⟩
      exact .cons ⟨h1, h2⟩ h3
    · intro h
      cases h with
      | @cons _ r _ l' h1 h3 => exact ⟨r.1, h1.1, r.2, h1.2, l', h3, rfl⟩

theorem parseMap_ok {κ α : Type} [DecidableEq κ] {le : κ → κ → Bool} {key : String → Out SyntaxError κ}
    {p : Json → Out SyntaxError α} {K : String → κ → Prop} {P : Json → α → Prop} {j : Json} {m : List (κ × α)}
    (hk : ∀ s k, key s = .ok k ↔ K s k) (hp : ∀ o, j = .object o → ∀ e ∈ o, ∀ a, p e.2 = .ok a ↔ P e.2 a) :
    parseMap le key p j = .ok m ↔ MapDoc le K P j m := by
  cases j with
  | object o =>
    simp only [parseMap, MapDoc, Out.bind_eq_ok, parseEntries_ok hk (hp o rfl), Out.ok.injEq, Json.object.injEq]
    constructor
    · rintro ⟨l, h, rfl⟩; exact ⟨o, l, rfl, h, rfl⟩
    · rintro ⟨_, l, rfl, h, rfl⟩; exact ⟨l, h, rfl⟩
  | _ => simp [parseMap, MapDoc]

variable {lib : ParseLib}

theorem parseIriString_ok {s i : String} : parseIriString lib s = .ok i ↔ s = i ∧ lib.isIriRef i = true := by
  unfold parseIriString
  split
  · rename_i h
    simp only [Out.ok.injEq]
    constructor
    · rintro rfl; exact ⟨rfl, h⟩
    · exact fun h => h.1
  · rename_i h
    simp only [reduceCtorEq, false_iff, not_and]
    rintro rfl; exact h

theorem parseIri_ok {j : Json} {i : CompactIri} : parseIri lib j = .ok i ↔ IriDoc lib j i := by
  simp only [parseIri, Out.bind_eq_ok, parseString_ok, parseIriString_ok, StringDoc, IriDoc]
  constructor
  · rintro ⟨_, rfl, rfl, h⟩; exact ⟨rfl, h⟩
  · rintro ⟨rfl, h⟩; exact ⟨i, rfl, rfl, h⟩

theorem parseOption_ok {α : Type} {p : Json → Out SyntaxError α} {j : Json} {x : Option α} :
    parseOption p j = .ok x ↔ (j = .null ∧ x = none) ∨ (j ≠ .null ∧ ∃ a, p j = .ok a ∧ x = some a) := by
  cases j with
  | null =>
    simp only [parseOption, Out.ok.injEq, true_and, ne_eq, not_true_eq_false, false_and, or_false]
    exact ⟨Eq.symm, Eq.symm⟩
  | _ =>
    simp only [parseOption, Out.bind_eq_ok, Out.ok.injEq, reduceCtorEq, false_and, false_or, ne_eq, not_false_eq_true, true_and]
    constructor
    · rintro ⟨a, h, rfl⟩; exact ⟨a, h, rfl⟩
    · rintro ⟨a, h, rfl⟩; exact ⟨a, h, rfl⟩

theorem reads_language {o : JsonObject} {ks : List String} (hk : "language" ∉ ks) :
    Reads o ks (parseLitType lib o none) ("language" :: ks)
      (fun t => ∃ tag, o.lookup "language" = some (.string tag) ∧ lib.isLangTag tag = true ∧ t = .language tag) := by
  have h : Reads o ks (requireEntry parseString o "language") _ _ :=
    reads_requireEntry (D := StringDoc) hk fun j _ a => parseString_ok
  unfold parseLitType
  refine (Reads.bind (β := SLitType) (Q := fun tag t => lib.isLangTag tag = true ∧ t = .language tag) h
    (fun tag => ⟨fun _ h => h, ?_⟩) (fun _ h => h)).congr fun t => ?_
  · intro hu t u
    split
    · rename_i hl
      simp only [Out.ok.injEq, Prod.mk.injEq, hl, true_and]
      constructor
      · rintro ⟨rfl, rfl⟩; exact ⟨rfl, hu, rfl⟩
      · rintro ⟨rfl, _, rfl⟩; exact ⟨rfl, rfl⟩
    · rename_i hl
      simp [hl]
  · constructor
    · rintro ⟨tag, h1, h2, h3⟩
      refine ⟨tag, ?_, h2, h3⟩
      revert h1
      cases o.lookup "language" <;> simp [OptDoc, StringDoc]
    · rintro ⟨tag, h1, h2, h3⟩
      exact ⟨tag, by rw [h1]; rfl, h2, h3⟩

theorem parseLiteralValue_ok {o : JsonObject} {p : SPattern} :
    parseLiteralValue lib o = .ok p ↔ PatternDoc lib (.object o) p := by
  unfold parseLiteralValue
  have hv : ∀ (ks : List String) (ty : SLitType), "value" ∉ ks → Reads o ks
      ((requireEntry parseString o "value").bind fun value => .pure (SPattern.literal value ty)) ("value" :: ks)
      (fun p => ∃ v, OptDoc StringDoc (o.lookup "value") (some v) ∧ p = SPattern.literal v ty) := fun ks ty hk =>
    Reads.bind (β := SPattern) (Q := fun v p => p = SPattern.literal v ty) (reads_requireEntry (D := StringDoc) hk fun j _ a => parseString_ok)
      (fun v => reads_pure _ _ _) (fun _ h => h)
  have hty := reads_getEntry (o := o) (ks := []) (p := parseIri lib) (key := "type") (D := IriDoc lib) (by simp)
    fun j _ a => parseIri_ok
  cases hl : o.lookup "type" with
  | none =>
    rw [hl] at hty
    -- the type is absent: the rest is executed with `none`
    have h2 : Reads o ["type"] ((parseLitType lib o none).bind fun ty =>
        (requireEntry parseString o "value").bind fun value => .pure (SPattern.literal value ty)) ["value", "language", "type"] _ :=
      Reads.bind (reads_language (by simp)) (fun ty => hv _ ty (by simp)) (by simp)
    have h3 : Reads o [] ((getEntry (parseIri lib) o "type").bind fun ty => (parseLitType lib o ty).bind fun ty =>
        (requireEntry parseString o "value").bind fun value => .pure (SPattern.literal value ty)) ["value", "language", "type"]
        (fun p => ∃ ty, (∃ tag, o.lookup "language" = some (.string tag) ∧ lib.isLangTag tag = true ∧ ty = .language tag) ∧
          ∃ v, OptDoc StringDoc (o.lookup "value") (some v) ∧ p = SPattern.literal v ty) := by
      refine ⟨by simp, fun hu b u => ?_⟩
      simp only [ObjParser.bind, Out.bind_eq_ok]
      constructor
      · rintro ⟨⟨a, u'⟩, h1, h4⟩
        obtain ⟨rfl, hu', hP⟩ := (hty.2 hu a u').1 h1
        cases a with
        | some a => exact hP.elim
        | none => exact (h2.2 hu' b u).1 (by simpa only [ObjParser.bind, Out.bind_eq_ok] using h4)
      · rintro ⟨rfl, hu'', hq⟩
        have hu' : ∀ k ∈ ["type"], Uniq o k := fun k hk => hu'' k (by simp at hk; simp [hk])
        refine ⟨(none, flags o ["type"]), (hty.2 hu none _).2 ⟨rfl, hu', trivial⟩, ?_⟩
        have := (h2.2 hu' b _).2 ⟨rfl, hu'', hq⟩
        simpa only [ObjParser.bind, Out.bind_eq_ok] using this
    rw [runObj_ok h3]
    constructor
    · rintro ⟨hm, ty, ⟨tag, ht, htag, rfl⟩, v, hv, rfl⟩
      refine .language (tag := tag) ⟨hm.1, fun e he => ?_⟩ ht htag ?_
      · have := hm.2 e he
        have hne : e.1 ≠ "type" := fun hc => lookup_none.1 hl (List.mem_map.2 ⟨e, he, hc⟩)
        simp only [List.mem_cons, List.not_mem_nil, or_false] at this ⊢
        tauto
      · revert hv; cases o.lookup "value" <;> simp [OptDoc, StringDoc]
    · intro h
      cases h with
      | typed hm ht _ _ => rw [hl] at ht; simp at ht
      | language hm ht hlang hv =>
        refine ⟨⟨hm.1, fun e he => ?_⟩, _, ⟨_, ht, hlang, rfl⟩, _, ?_, rfl⟩
        · have := hm.2 e he
          simp only [List.mem_cons, List.not_mem_nil, or_false] at this ⊢
          tauto
        · rw [hv]; rfl
  | some j =>
    have h3 : Reads o [] ((getEntry (parseIri lib) o "type").bind fun ty => (parseLitType lib o ty).bind fun ty =>
        (requireEntry parseString o "value").bind fun value => .pure (SPattern.literal value ty)) ["value", "type"]
        (fun p => ∃ ty, IriDoc lib j ty ∧
          ∃ v, OptDoc StringDoc (o.lookup "value") (some v) ∧ p = SPattern.literal v (.iri ty)) := by
      rw [hl] at hty
      refine ⟨by simp, fun hu b u => ?_⟩
      simp only [ObjParser.bind, Out.bind_eq_ok]
      constructor
      · rintro ⟨⟨a, u'⟩, h1, h4⟩
        obtain ⟨rfl, hu', hP⟩ := (hty.2 hu a u').1 h1
        cases a with
        | none => exact hP.elim
        | some a =>
          obtain ⟨e1, e2, e3⟩ := ((hv ["type"] (.iri a) (by simp)).2 hu' b u).1
            (by simpa only [ObjParser.bind, Out.bind_eq_ok, parseLitType, ObjParser.pure, Out.ok.injEq, exists_eq_left'] using h4)
          exact ⟨e1, e2, a, hP, e3⟩
      · rintro ⟨rfl, hu'', ty, hP, hq⟩
        have hu' : ∀ k ∈ ["type"], Uniq o k := fun k hk => hu'' k (by simp at hk; simp [hk])
        refine ⟨(some ty, flags o ["type"]), (hty.2 hu _ _).2 ⟨rfl, hu', hP⟩, ?_⟩
        have := ((hv ["type"] (.iri ty) (by simp)).2 hu' b _).2 ⟨rfl, hu'', hq⟩
        simpa only [ObjParser.bind, Out.bind_eq_ok, parseLitType, ObjParser.pure, Out.ok.injEq, exists_eq_left'] using this
    rw [runObj_ok h3]
    constructor
    · rintro ⟨hm, ty, ⟨rfl, hi⟩, v, hv, rfl⟩
      refine .typed ((Members.congr ?_).1 hm) hl hi ?_
      · simp; tauto
      · revert hv; cases o.lookup "value" <;> simp [OptDoc, StringDoc]
    · intro h
      cases h with
      | typed hm ht hi hv =>
        rw [hl] at ht
        simp only [Option.some.injEq] at ht
        subst ht
        exact ⟨(Members.congr (by simp; tauto)).1 hm, _, ⟨rfl, hi⟩, _, by rw [hv]; rfl, rfl⟩
      | language hm ht hlang hv =>
        exfalso
        have hin : "type" ∈ keysOf o := by
          by_contra hc
          rw [← lookup_none, hl] at hc
          cases hc
        obtain ⟨e, he, hc⟩ := List.mem_map.1 hin
        have := hm.2 e he
        rw [hc] at this
        simp at this

theorem parsePattern_ok {j : Json} {p : SPattern} : parsePattern lib j = .ok p ↔ PatternDoc lib j p := by
  cases j with
  | string s =>
    simp only [parsePattern]
    split
    · rename_i hb
      simp only [Out.ok.injEq]
      constructor
      · rintro rfl; exact .var hb (by simp [blankSuffix])
      · intro h
        cases h with
        | var _ hx => simp only [blankSuffix, ← hx, String.ofList_toList]
        | iri h _ => rw [h] at hb; cases hb
    · rename_i hb
      split
      · rename_i hi
        simp only [Out.ok.injEq]
        constructor
        · rintro rfl; exact .iri (by simpa using hb) hi
        · intro h
          cases h with
          | var h _ => exact absurd h hb
          | iri _ _ => rfl
      · rename_i hi
        simp only [reduceCtorEq, false_iff]
        intro h
        cases h with
        | var h _ => exact hb h
        | iri _ h => exact hi h
  | object o => exact parseLiteralValue_ok
  | _ =>
    simp only [parsePattern, reduceCtorEq, false_iff]
    intro h; cases h

theorem parseQuad_ok {j : Json} {q : Quad SPattern} : parseQuad lib j = .ok q ↔ QuadDoc lib j q := by
  cases j with
  | array l =>
    match l with
    | [] | [_] | [_, _] =>
      simp only [parseQuad, reduceCtorEq, false_iff]
      intro h; cases h
    | [js, jp, jo] =>
      simp only [parseQuad, parseFourth, List.length_nil, Nat.add_zero, gt_iff_lt, Nat.reduceLT, if_false, Out.bind_eq_ok,
        parsePattern_ok, Out.ok.injEq]
      constructor
      · rintro ⟨s, hs, p, hp, o, ho, _, rfl, rfl⟩; exact .three hs hp ho
      · intro h
        cases h with
        | three hs hp ho => exact ⟨_, hs, _, hp, _, ho, _, rfl, rfl⟩
    | [js, jp, jo, jg] =>
      simp only [parseQuad, parseFourth, List.length_cons, List.length_nil, Nat.reduceAdd, gt_iff_lt, Nat.lt_irrefl, if_false,
        Out.bind_eq_ok, parsePattern_ok, Out.ok.injEq]
      constructor
      · rintro ⟨s, hs, p, hp, o, ho, _, ⟨g, hg, rfl⟩, rfl⟩; exact .four hs hp ho hg
      · intro h
        cases h with
        | four hs hp ho hg => exact ⟨_, hs, _, hp, _, ho, _, ⟨_, hg, rfl⟩, rfl⟩
    | _ :: _ :: _ :: _ :: _ :: l =>
      simp only [parseQuad, List.length_cons]
      rw [if_pos (by omega)]
      simp only [reduceCtorEq, false_iff]
      intro h; cases h
  | _ =>
    simp only [parseQuad, reduceCtorEq, false_iff]
    intro h; cases h

theorem parseDataset_ok {j : Json} {d : List (Quad SPattern)} : parseDataset lib j = .ok d ↔ DatasetDoc lib j d :=
  parseVec_ok fun _ _ _ _ _ => parseQuad_ok

theorem parseI64_ok {s : List Char} {z : Int} : parseI64 s = some z ↔ I64Doc s z := by
  have key : ∀ (neg : Bool) (ds : List Char), Number.stripSign s = (neg, ds) →
      (s = ds ∧ neg = false ∨ s = '+' :: ds ∧ neg = false ∨ s = '-' :: ds ∧ neg = true) →
      (∀ neg' ds', (s = ds' ∧ neg' = false ∨ s = '+' :: ds' ∧ neg' = false ∨ s = '-' :: ds' ∧ neg' = true) → ds' ≠ [] →
        (∀ c ∈ ds', c.isDigit = true) → neg' = neg ∧ ds' = ds) →
      (parseI64 s = some z ↔ I64Doc s z) := by
    intro neg ds h hs huniq
    unfold parseI64
    simp only [h]
    rw [Option.ite_none_right_eq_some]
    constructor
    · rintro ⟨hc, hp⟩
      simp only [Option.some.injEq] at hp
      subst hp
      exact ⟨neg, ds, hs, hc.1, by simpa using hc.2.1, rfl, hc.2.2.1, hc.2.2.2⟩
    · rintro ⟨neg', ds', hs', hne, hd, rfl, h1, h2⟩
      obtain ⟨rfl, rfl⟩ := huniq neg' ds' hs' hne hd
      exact ⟨⟨hne, by simpa using hd, h1, h2⟩, rfl⟩
  match s with
  | [] =>
    refine key false [] rfl (.inl ⟨rfl, rfl⟩) ?_
    rintro neg' ds' (⟨rfl, rfl⟩ | ⟨h, _⟩ | ⟨h, _⟩) hne _
    · exact absurd rfl hne
    · cases h
    · cases h
  | c :: cs =>
    by_cases h1 : c = '-'
    · subst h1
      refine key true cs rfl (.inr (.inr ⟨rfl, rfl⟩)) ?_
      rintro neg' ds' (⟨rfl, rfl⟩ | ⟨h, _⟩ | ⟨h, rfl⟩) hne hd
      · exact absurd (hd '-' (List.mem_cons_self ..)) (by decide)
      · simp at h
      · simp only [List.cons.injEq, true_and] at h; exact ⟨rfl, h.symm⟩
    · by_cases h2 : c = '+'
      · subst h2
        refine key false cs rfl (.inr (.inl ⟨rfl, rfl⟩)) ?_
        rintro neg' ds' (⟨rfl, rfl⟩ | ⟨h, rfl⟩ | ⟨h, rfl⟩) hne hd
        · exact absurd (hd '+' (List.mem_cons_self ..)) (by decide)
        · simp only [List.cons.injEq, true_and] at h; exact ⟨rfl, h.symm⟩
        · simp at h
      · refine key false (c :: cs) ?_ (.inl ⟨rfl, rfl⟩) ?_
        · unfold Number.stripSign
          split
          · rename_i h; simp only [List.cons.injEq] at h; exact absurd h.1 h1
          · rename_i h; simp only [List.cons.injEq] at h; exact absurd h.1 h2
          · rfl
        · rintro neg' ds' (⟨rfl, rfl⟩ | ⟨h, _⟩ | ⟨h, _⟩) hne hd
          · exact ⟨rfl, rfl⟩
          · simp only [List.cons.injEq] at h; exact absurd h.1 h2
          · simp only [List.cons.injEq] at h; exact absurd h.1 h1

theorem I64Doc.noDot {s : List Char} {z : Int} (h : I64Doc s z) : '.' ∉ s := by
  obtain ⟨neg, ds, hs, _, hd, _⟩ := h
  have hn : '.' ∉ ds := fun hc => absurd (hd _ hc) (by decide)
  rcases hs with ⟨rfl, _⟩ | ⟨rfl, _⟩ | ⟨rfl, _⟩ <;> simpa using hn

theorem parseInteger_ok {s : List Char} {r : SResource} : parseInteger s = .ok r ↔ ∃ z, I64Doc s z ∧ r = .number z := by
  unfold parseInteger
  split
  · rename_i h
    simp only [reduceCtorEq, false_iff]
    rintro ⟨z, hz, _⟩
    exact hz.noDot h
  · split
    · rename_i z hz
      rw [parseI64_ok] at hz
      simp only [Out.ok.injEq]
      constructor
      · rintro rfl; exact ⟨z, hz, rfl⟩
      · rintro ⟨z', hz', rfl⟩
        have h1 := parseI64_ok.2 hz
        have h2 := parseI64_ok.2 hz'
        rw [h1] at h2
        simp only [Option.some.injEq] at h2
        rw [h2]
    · rename_i hz
      simp only [reduceCtorEq, false_iff]
      rintro ⟨z, h, _⟩
      rw [parseI64_ok.2 h] at hz
      cases hz

theorem optString {v : Option Json} {s : String} : OptDoc StringDoc v (some s) ↔ v = some (.string s) := by
  cases v <;> simp [OptDoc, StringDoc]

theorem optIri {v : Option Json} {s : String} : OptDoc (IriDoc lib) v (some s) ↔ v = some (.string s) ∧ lib.isIriRef s = true := by
  cases v <;> simp [OptDoc, IriDoc]

theorem parseResource_ok {j : Json} {r : SResource} : parseResource lib j = .ok r ↔ ResourceDoc lib j r := by
  cases j with
  | boolean b =>
    simp only [parseResource, Out.ok.injEq]
    constructor
    · rintro rfl; exact .boolean b
    · intro h; cases h; rfl
  | number s =>
    simp only [parseResource, parseInteger_ok]
    constructor
    · rintro ⟨z, h, rfl⟩; exact .number h
    · intro h
      cases h with
      | number h => exact ⟨_, h, rfl⟩
  | string s =>
    simp only [parseResource, Out.ok.injEq]
    constructor
    · rintro rfl; exact .string s
    · intro h; cases h; rfl
  | object o =>
    simp only [parseResource]
    have h : Reads o [] ((requireEntry parseString o "value").bind fun value =>
        (requireEntry (parseIri lib) o "type").bind fun ty => .pure (SResource.typed value ty)) ["type", "value"] _ :=
      Reads.bind (reads_requireEntry (D := StringDoc) (by simp) fun j _ a => parseString_ok)
        (fun v => Reads.bind (β := SResource) (Q := fun ty r => r = .typed v ty)
          (reads_requireEntry (D := IriDoc lib) (by simp) fun j _ a => parseIri_ok)
          (fun ty => reads_pure _ _ _) (fun _ h => h)) (by simp)
    rw [runObj_ok h]
    constructor
    · rintro ⟨hm, v, hv, ty, hty, rfl⟩
      rw [optString] at hv
      rw [optIri] at hty
      exact .typed hm hty.1 hty.2 hv
    · intro h
      cases h with
      | typed hm ht hi hv => exact ⟨hm, _, optString.2 hv, _, optIri.2 ⟨ht, hi⟩, rfl⟩
  | _ =>
    simp only [parseResource, reduceCtorEq, false_iff]
    intro h; cases h

theorem parseRegExp_ok {j : Json} {e : RegExp} : parseRegExp j = .ok e ↔ RegExpDoc j e := by
  simp only [parseRegExp, Out.bind_eq_ok, parseString_ok, StringDoc, RegExpDoc, Out.mapErr_eq_ok]

theorem parseConst_ok {j : Json} {v : Value} : parseConst j = .ok v ↔ ConstDoc j v := by
  simp only [parseConst, ConstDoc, Out.mapErr_eq_ok]

theorem parseGraph_ok {j : Json} {g : Option (Option SPattern)} :
    parseOption (parseOption (parsePattern lib)) j = .ok g ↔ GraphDoc lib j g := by
  simp only [parseOption_ok, parsePattern_ok]
  constructor
  · rintro (⟨rfl, rfl⟩ | ⟨hn, a, (⟨hn', _⟩ | ⟨_, p, hp, rfl⟩), rfl⟩)
    · exact .null
    · exact absurd hn' hn
    · exact .pattern hp
  · intro h
    cases h with
    | null => exact .inl ⟨rfl, rfl⟩
    | pattern hp =>
      have hn : j ≠ .null := by rintro rfl; cases hp
      exact .inr ⟨hn, _, .inr ⟨hn, _, hp, rfl⟩, rfl⟩

end Verif
