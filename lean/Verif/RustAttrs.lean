import Verif.RustLemmas

/-!
# Attributes of the derive macros

`Joins`: how the attributes of two lists are combined. The specification of C64.
-/

set_option linter.unusedSectionVars false
set_option linter.unusedSimpArgs false

namespace Verif.Rust

/-- `z` is what is known of an attribute when one list gives `x` and another one gives `y`. -/
def JoinsOpt {α : Type} (x y z : Option α) : Prop := (x = none ∧ z = y) ∨ (y = none ∧ z = x) ∨ (x = y ∧ z = x)

/-- The attributes of a field, variant or item given in two lists. -/
structure CompAttrs.Joins (x y z : CompAttrs) : Prop where
  head : JoinsOpt x.head y.head z.head
  rest : JoinsOpt x.rest y.rest z.rest
  intro : JoinsOpt x.intro y.intro z.intro
  property : JoinsOpt x.property y.property z.property
  dataset : JoinsOpt x.dataset y.dataset z.dataset
  input : JoinsOpt x.input y.input z.input
  graph : JoinsOpt x.graph y.graph z.graph

/-- The attributes of a type given in two lists. The last definition of a prefix wins. -/
structure TypeAttrs.Joins (x y z : TypeAttrs) : Prop where
  base : JoinsOpt x.base y.base z.base
  prefixes : ∀ p, z.prefixes.lookup p = (y.prefixes.lookup p).or (x.prefixes.lookup p)
  id : JoinsOpt x.id y.id z.id
  kind : JoinsOpt x.kind y.kind z.kind
  input : JoinsOpt x.input y.input z.input
  intro : JoinsOpt x.intro y.intro z.intro
  head : JoinsOpt x.head y.head z.head
  tail : JoinsOpt x.tail y.tail z.tail
  dataset : JoinsOpt x.dataset y.dataset z.dataset
  resource : JoinsOpt x.resource y.resource z.resource
  datatype : JoinsOpt x.datatype y.datatype z.datatype

/-! ## Joining -/

section
variable {α : Type}

theorem joinsOpt_none_left (x : Option α) : JoinsOpt none x x := .inl ⟨rfl, rfl⟩

theorem joinsOpt_none_right (x : Option α) : JoinsOpt x none x := .inr (.inl ⟨rfl, rfl⟩)

/-- The join of two options, when there is one. -/
def joinOpt (x y : Option α) : Option α := x.or y

theorem joinsOpt_assoc {x y z a b : Option α} (h1 : JoinsOpt x y a) (h2 : JoinsOpt a z b) :
    JoinsOpt y z (joinOpt y z) ∧ JoinsOpt x (joinOpt y z) b := by
  unfold JoinsOpt joinOpt at *
  cases x <;> cases y <;> cases z <;> cases a <;> cases b <;> simp_all

theorem joinsOpt_unassoc {x y z a b : Option α} (h1 : JoinsOpt y z a) (h2 : JoinsOpt x a b) :
    JoinsOpt x y (joinOpt x y) ∧ JoinsOpt (joinOpt x y) z b := by
  unfold JoinsOpt joinOpt at *
  cases x <;> cases y <;> cases z <;> cases a <;> cases b <;> simp_all

theorem joinsOpt_unique {x y a b : Option α} (h1 : JoinsOpt x y a) (h2 : JoinsOpt x y b) : a = b := by
  unfold JoinsOpt at *
  cases x <;> cases y <;> cases a <;> cases b <;> simp_all

theorem joinsOpt_comm {x y a : Option α} (h : JoinsOpt x y a) : JoinsOpt y x a := by
  unfold JoinsOpt at *
  cases x <;> cases y <;> cases a <;> simp_all

theorem replace_joins [DecidableEq α] {x : Option α} {v : α} {z : Option α} : replace x v = .ok z ↔ JoinsOpt x (some v) z := by
  unfold replace JoinsOpt
  cases x with
  | none => simp [eq_comm]
  | some o =>
    simp only
    by_cases h : o = v
    · subst h; simp [eq_comm]
    · simp [h]

end

/-! ## Lists of attributes -/

/-- A step of the loop reads the same attributes whatever is known already, and adds them to what is known. -/
structure Adds {α : Type} (step : α → Tok → List Tok → Out MacroError (α × List Tok)) (e : α) (J : α → α → α → Prop) : Prop where
  only : ∀ a t ts r, step a t ts = .ok r → ∃ d, step e t ts = .ok (d, r.2) ∧ J a d r.1
  all : ∀ a t ts d ts' u, step e t ts = .ok (d, ts') → J a d u → ∃ b, step a t ts = .ok (b, ts')
  unit : ∀ a, J a e a
  assoc : ∀ {x y z a b}, J x y a → J a z b → ∃ m, J y z m ∧ J x m b
  unassoc : ∀ {x y z a b}, J y z a → J x a b → ∃ m, J x y m ∧ J m z b
  same : ∀ {x y m m'}, J x y m → J x y m' → (∀ {a b}, J a m b → J a m' b) ∧ (∀ {a b}, J m a b → J m' a b)

section
variable {α : Type} {step : α → Tok → List Tok → Out MacroError (α × List Tok)} {e : α} {J : α → α → α → Prop}

theorem Adds.loop (h : Adds step e J) (n : Nat) (ts : List Tok) :
    (∀ a b, attrLoop step n a ts = .ok b → ∃ d, attrLoop step n e ts = .ok d ∧ J a d b) ∧
    (∀ a d u, attrLoop step n e ts = .ok d → J a d u → ∃ b, attrLoop step n a ts = .ok b) := by
  induction n generalizing ts with
  | zero =>
    cases ts with
    | nil =>
      refine ⟨fun a b hb => ?_, fun a d u _ _ => ⟨a, rfl⟩⟩
      injection hb with hb
      subst hb
      exact ⟨e, rfl, h.unit a⟩
    | cons t ts => exact ⟨fun a b hb => by simp [attrLoop] at hb, fun a d u hb => by simp [attrLoop] at hb⟩
  | succ n ih =>
    cases ts with
    | nil =>
      refine ⟨fun a b hb => ?_, fun a d u _ _ => ⟨a, rfl⟩⟩
      injection hb with hb
      subst hb
      exact ⟨e, rfl, h.unit a⟩
    | cons t ts =>
      refine ⟨fun a b hb => ?_, fun a d u hd hj => ?_⟩
      · simp only [attrLoop, Out.bind_eq_ok] at hb
        obtain ⟨⟨a1, ts1⟩, h1, hb⟩ := hb
        obtain ⟨d1, hd1, hj1⟩ := h.only _ _ _ _ h1
        simp only at hb hd1 hj1
        rcases ts1 with _ | ⟨_ | _ | _ | ch | _, ts1⟩
        · injection hb with hb
          subst hb
          exact ⟨d1, by simp [attrLoop, hd1, Out.bind], hj1⟩
        all_goals try (simp at hb; done)
        by_cases hc : ch = ','
        · subst hc
          obtain ⟨d2, hd2, hj2⟩ := (ih ts1).1 _ _ hb
          obtain ⟨m, hm1, hm2⟩ := h.assoc hj1 hj2
          obtain ⟨d, hd⟩ := (ih ts1).2 _ _ _ hd2 hm1
          obtain ⟨d2', hd2', hj'⟩ := (ih ts1).1 _ _ hd
          rw [hd2] at hd2'
          injection hd2' with hd2'
          subst hd2'
          exact ⟨d, by simp [attrLoop, hd1, hd, Out.bind], (h.same hm1 hj').1 hm2⟩
        · split at hb <;> simp_all
      · simp only [attrLoop, Out.bind_eq_ok] at hd
        obtain ⟨⟨d1, ts1⟩, h1, hd⟩ := hd
        simp only at hd
        rcases ts1 with _ | ⟨_ | _ | _ | ch | _, ts1⟩
        · injection hd with hd
          subst hd
          obtain ⟨b, hb⟩ := h.all _ _ _ _ _ _ h1 hj
          exact ⟨b, by simp [attrLoop, hb, Out.bind]⟩
        all_goals try (simp at hd; done)
        by_cases hc : ch = ','
        · subst hc
          obtain ⟨d2, hd2, hj2⟩ := (ih ts1).1 _ _ hd
          obtain ⟨m, hm1, hm2⟩ := h.unassoc hj2 hj
          obtain ⟨b1, hb1⟩ := h.all _ _ _ _ _ _ h1 hm1
          obtain ⟨d1', hd1', hj'⟩ := h.only _ _ _ _ hb1
          simp only [h1] at hd1' hj'
          simp only [Out.ok.injEq, Prod.mk.injEq, and_true] at hd1'
          subst hd1'
          obtain ⟨b, hb⟩ := (ih ts1).2 _ _ _ hd2 ((h.same hm1 hj').2 hm2)
          exact ⟨b, by simp [attrLoop, hb1, hb, Out.bind]⟩
        · split at hd <;> simp_all

theorem Adds.attrs (h : Adds step e J) (l : List RAttr) :
    (∀ a b, parseAttrs step l a = .ok b → ∃ d, parseAttrs step l e = .ok d ∧ J a d b) ∧
    (∀ a d u, parseAttrs step l e = .ok d → J a d u → ∃ b, parseAttrs step l a = .ok b) := by
  induction l with
  | nil =>
    refine ⟨fun a b hb => ?_, fun a d u _ _ => ⟨a, rfl⟩⟩
    injection hb with hb
    subst hb
    exact ⟨e, rfl, h.unit a⟩
  | cons x l ih =>
    by_cases hp : x.path = "tldr"
    · cases ht : x.tokens with
      | none => exact ⟨fun a b hb => by simp [parseAttrs, hp, ht] at hb, fun a d u hb => by simp [parseAttrs, hp, ht] at hb⟩
      | some ts =>
        simp only [parseAttrs, hp, ht, if_true, Out.bind_eq_ok]
        refine ⟨fun a b hb => ?_, fun a d u hd hj => ?_⟩
        · obtain ⟨a1, h1, hb⟩ := hb
          obtain ⟨d1, hd1, hj1⟩ := (h.loop _ _).1 _ _ h1
          obtain ⟨d2, hd2, hj2⟩ := ih.1 _ _ hb
          obtain ⟨m, hm1, hm2⟩ := h.assoc hj1 hj2
          obtain ⟨d, hd⟩ := ih.2 _ _ _ hd2 hm1
          obtain ⟨d2', hd2', hj'⟩ := ih.1 _ _ hd
          rw [hd2] at hd2'
          injection hd2' with hd2'
          subst hd2'
          exact ⟨d, ⟨d1, hd1, hd⟩, (h.same hm1 hj').1 hm2⟩
        · obtain ⟨d1, h1, hd⟩ := hd
          obtain ⟨d2, hd2, hj2⟩ := ih.1 _ _ hd
          obtain ⟨m, hm1, hm2⟩ := h.unassoc hj2 hj
          obtain ⟨b1, hb1⟩ := (h.loop _ _).2 _ _ _ h1 hm1
          obtain ⟨d1', hd1', hj'⟩ := (h.loop _ _).1 _ _ hb1
          rw [h1] at hd1'
          injection hd1' with hd1'
          subst hd1'
          obtain ⟨b, hb⟩ := ih.2 _ _ _ hd2 ((h.same hm1 hj').2 hm2)
          exact ⟨b, b1, hb1, hb⟩
    · simpa only [parseAttrs, hp, if_false] using ih

theorem parseAttrs_append (l l' : List RAttr) (a : α) :
    parseAttrs step (l ++ l') a = (parseAttrs step l a).bind (parseAttrs step l') := by
  induction l generalizing a with
  | nil => rfl
  | cons x l ih =>
    simp only [List.cons_append, parseAttrs]
    split
    · cases x.tokens with
      | none => rfl
      | some ts =>
        simp only
        cases attrLoop step ts.length a ts <;> simp [Out.bind, ih]
    · exact ih a

theorem Adds.append (h : Adds step e J) (l l' : List RAttr) (r : α) (hr : parseAttrs step (l ++ l') e = .ok r) :
    ∃ x y, parseAttrs step l e = .ok x ∧ parseAttrs step l' e = .ok y ∧ J x y r := by
  rw [parseAttrs_append, Out.bind_eq_ok] at hr
  obtain ⟨x, hx, hr⟩ := hr
  obtain ⟨y, hy, hj⟩ := (h.attrs l').1 _ _ hr
  exact ⟨x, y, hx, hy, hj⟩

theorem Adds.of_append (h : Adds step e J) (l l' : List RAttr) (x y u : α) (hx : parseAttrs step l e = .ok x)
    (hy : parseAttrs step l' e = .ok y) (hu : J x y u) : ∃ r, parseAttrs step (l ++ l') e = .ok r := by
  rw [parseAttrs_append, hx]
  exact (h.attrs l').2 _ _ _ hy hu

end

/-! ## Fields, variants and items -/

theorem compAttrs_unit (a : CompAttrs) : a.Joins {} a := by
  constructor <;> exact joinsOpt_none_right _

theorem replace_none {α : Type} [DecidableEq α] (v : α) : replace none v = .ok (some v) := rfl

theorem comp_adds (lib : IriLib) : Adds (compStep lib) {} CompAttrs.Joins where
  only := by
    intro a t ts r h
    unfold compStep at h ⊢
    repeat' split at h
    all_goals first
      | (simp at h; done)
      | (simp only [Out.bind_eq_ok] at h
         obtain ⟨v, hv, z, hz, h⟩ := h
         injection h with h
         subst h
         simp only [hv, Out.bind, replace_none, if_true, if_false, *]
         refine ⟨_, rfl, ?_⟩
         rw [replace_joins] at hz
         constructor <;> first | exact hz | exact joinsOpt_none_right _)
      | (injection h with h
         subst h
         simp only [if_false, *]
         exact ⟨_, rfl, compAttrs_unit a⟩)
  all := by
    intro a t ts d ts' u h hj
    unfold compStep at h ⊢
    repeat' split at h
    all_goals first
      | (simp at h; done)
      | (simp only [Out.bind_eq_ok, replace_none, Out.ok.injEq, exists_eq_left', Prod.mk.injEq] at h
         obtain ⟨v, hv, hd, hts⟩ := h
         subst hd
         simp only [hv, Out.bind, if_true, if_false, *]
         first
           | (have := replace_joins.2 hj.head; simp only [this, hts]; exact ⟨_, rfl⟩)
           | (have := replace_joins.2 hj.rest; simp only [this, hts]; exact ⟨_, rfl⟩)
           | (have := replace_joins.2 hj.intro; simp only [this, hts]; exact ⟨_, rfl⟩)
           | (have := replace_joins.2 hj.property; simp only [this, hts]; exact ⟨_, rfl⟩)
           | (have := replace_joins.2 hj.dataset; simp only [this, hts]; exact ⟨_, rfl⟩)
           | (have := replace_joins.2 hj.input; simp only [this, hts]; exact ⟨_, rfl⟩)
           | (have := replace_joins.2 hj.graph; simp only [this, hts]; exact ⟨_, rfl⟩))
      | (simp only [Out.ok.injEq, Prod.mk.injEq] at h
         simp only [if_false, *]
         exact ⟨_, rfl⟩)
  unit := compAttrs_unit
  assoc := by
    intro x y z a b h1 h2
    exact ⟨⟨joinOpt y.head z.head, joinOpt y.rest z.rest, joinOpt y.intro z.intro, joinOpt y.property z.property,
      joinOpt y.dataset z.dataset, joinOpt y.input z.input, joinOpt y.graph z.graph⟩,
      ⟨(joinsOpt_assoc h1.head h2.head).1, (joinsOpt_assoc h1.rest h2.rest).1, (joinsOpt_assoc h1.intro h2.intro).1,
        (joinsOpt_assoc h1.property h2.property).1, (joinsOpt_assoc h1.dataset h2.dataset).1,
        (joinsOpt_assoc h1.input h2.input).1, (joinsOpt_assoc h1.graph h2.graph).1⟩,
      ⟨(joinsOpt_assoc h1.head h2.head).2, (joinsOpt_assoc h1.rest h2.rest).2, (joinsOpt_assoc h1.intro h2.intro).2,
        (joinsOpt_assoc h1.property h2.property).2, (joinsOpt_assoc h1.dataset h2.dataset).2,
        (joinsOpt_assoc h1.input h2.input).2, (joinsOpt_assoc h1.graph h2.graph).2⟩⟩
  unassoc := by
    intro x y z a b h1 h2
    exact ⟨⟨joinOpt x.head y.head, joinOpt x.rest y.rest, joinOpt x.intro y.intro, joinOpt x.property y.property,
      joinOpt x.dataset y.dataset, joinOpt x.input y.input, joinOpt x.graph y.graph⟩,
      ⟨(joinsOpt_unassoc h1.head h2.head).1, (joinsOpt_unassoc h1.rest h2.rest).1, (joinsOpt_unassoc h1.intro h2.intro).1,
        (joinsOpt_unassoc h1.property h2.property).1, (joinsOpt_unassoc h1.dataset h2.dataset).1,
        (joinsOpt_unassoc h1.input h2.input).1, (joinsOpt_unassoc h1.graph h2.graph).1⟩,
      ⟨(joinsOpt_unassoc h1.head h2.head).2, (joinsOpt_unassoc h1.rest h2.rest).2, (joinsOpt_unassoc h1.intro h2.intro).2,
        (joinsOpt_unassoc h1.property h2.property).2, (joinsOpt_unassoc h1.dataset h2.dataset).2,
        (joinsOpt_unassoc h1.input h2.input).2, (joinsOpt_unassoc h1.graph h2.graph).2⟩⟩
  same := by
    intro x y m m' h1 h2
    obtain rfl : m = m' := by
      obtain ⟨a1, a2, a3, a4, a5, a6, a7⟩ := h1
      obtain ⟨b1, b2, b3, b4, b5, b6, b7⟩ := h2
      cases m
      cases m'
      simp only [CompAttrs.mk.injEq]
      exact ⟨joinsOpt_unique a1 b1, joinsOpt_unique a2 b2, joinsOpt_unique a3 b3, joinsOpt_unique a4 b4,
        joinsOpt_unique a5 b5, joinsOpt_unique a6 b6, joinsOpt_unique a7 b7⟩
    exact ⟨id, id⟩

/-! ## Types -/

theorem typeAttrs_unit (a : TypeAttrs) : a.Joins {} a := by
  constructor
  case prefixes => intro p; rfl
  all_goals exact joinsOpt_none_right _

theorem lookup_fold (l m : List (String × CompactIri)) (p : String) :
    (l.foldl (fun acc b => bmapInsert strLe b.1 b.2 acc) m).lookup p =
      ((l.foldl (fun acc b => bmapInsert strLe b.1 b.2 acc) []).lookup p).or (m.lookup p) := by
  induction l generalizing m with
  | nil => rfl
  | cons b l ih =>
    simp only [List.foldl_cons]
    rw [ih (bmapInsert strLe b.1 b.2 m), ih (bmapInsert strLe b.1 b.2 [])]
    simp only [lookup_bmapInsert]
    split
    · simp
    · simp

theorem type_adds (lib : IriLib) : Adds (typeStep lib) {} TypeAttrs.Joins where
  only := by
    intro a t ts r h
    unfold typeStep at h ⊢
    repeat' split at h
    all_goals first
      | (simp at h; done)
      | (simp only [Out.bind_eq_ok] at h
         obtain ⟨z, hz, h⟩ := h
         injection h with h
         subst h
         simp only [Out.bind, replace_none, if_true, if_false, *]
         refine ⟨_, rfl, ?_⟩
         rw [replace_joins] at hz
         constructor
         case prefixes => intro p; rfl
         all_goals first | exact hz | exact joinsOpt_none_right _)
      | (simp only [Out.bind_eq_ok] at h
         obtain ⟨v, hv, z, hz, h⟩ := h
         injection h with h
         subst h
         simp only [hv, Out.bind, replace_none, if_true, if_false, *]
         refine ⟨_, rfl, ?_⟩
         rw [replace_joins] at hz
         constructor
         case prefixes => intro p; rfl
         all_goals first | exact hz | exact joinsOpt_none_right _)
      | (simp only [Out.bind_eq_ok] at h
         obtain ⟨v, hv, h⟩ := h
         injection h with h
         subst h
         simp only [hv, Out.bind, if_true, if_false, *]
         refine ⟨_, rfl, ?_⟩
         constructor
         case prefixes => intro p; exact lookup_fold _ _ _
         all_goals exact joinsOpt_none_right _)
      | (injection h with h
         subst h
         simp only [if_false, *]
         exact ⟨_, rfl, typeAttrs_unit a⟩)
  all := by
    intro a t ts d ts' u h hj
    unfold typeStep at h ⊢
    repeat' split at h
    all_goals first
      | (simp at h; done)
      | (simp only [Out.bind, replace_none, Out.ok.injEq, Prod.mk.injEq] at h
         obtain ⟨hd, hts⟩ := h
         subst hd
         simp only [Out.bind, if_true, if_false, *]
         have := replace_joins.2 hj.kind
         simp only [this, hts]
         exact ⟨_, rfl⟩)
      | (simp only [Out.bind_eq_ok, replace_none, Out.ok.injEq, exists_eq_left', Prod.mk.injEq] at h
         obtain ⟨v, hv, hd, hts⟩ := h
         subst hd
         simp only [hv, Out.bind, if_true, if_false, *]
         first
           | exact ⟨_, rfl⟩
           | (have := replace_joins.2 hj.base; simp only [this, hts]; exact ⟨_, rfl⟩)
           | (have := replace_joins.2 hj.head; simp only [this, hts]; exact ⟨_, rfl⟩)
           | (have := replace_joins.2 hj.tail; simp only [this, hts]; exact ⟨_, rfl⟩)
           | (have := replace_joins.2 hj.resource; simp only [this, hts]; exact ⟨_, rfl⟩)
           | (have := replace_joins.2 hj.datatype; simp only [this, hts]; exact ⟨_, rfl⟩)
           | (have := replace_joins.2 hj.input; simp only [this, hts]; exact ⟨_, rfl⟩)
           | (have := replace_joins.2 hj.intro; simp only [this, hts]; exact ⟨_, rfl⟩)
           | (have := replace_joins.2 hj.dataset; simp only [this, hts]; exact ⟨_, rfl⟩))
      | (simp only [Out.ok.injEq, Prod.mk.injEq] at h
         simp only [if_false, *]
         exact ⟨_, rfl⟩)
  unit := typeAttrs_unit
  assoc := by
    intro x y z a b h1 h2
    refine ⟨
      ⟨joinOpt y.base z.base, z.prefixes ++ y.prefixes, joinOpt y.id z.id, joinOpt y.kind z.kind, joinOpt
        y.input z.input, joinOpt y.intro z.intro, joinOpt y.head z.head, joinOpt y.tail z.tail, joinOpt
        y.dataset z.dataset, joinOpt y.resource z.resource, joinOpt y.datatype z.datatype⟩,
      ⟨(joinsOpt_assoc h1.base h2.base).1, fun p => List.lookup_append, (joinsOpt_assoc h1.id h2.id).1,
        (joinsOpt_assoc h1.kind h2.kind).1, (joinsOpt_assoc h1.input h2.input).1, (joinsOpt_assoc h1.intro
        h2.intro).1, (joinsOpt_assoc h1.head h2.head).1, (joinsOpt_assoc h1.tail h2.tail).1, (joinsOpt_assoc
        h1.dataset h2.dataset).1, (joinsOpt_assoc h1.resource h2.resource).1, (joinsOpt_assoc h1.datatype
        h2.datatype).1⟩,
      ⟨(joinsOpt_assoc h1.base h2.base).2, fun p => ?_, (joinsOpt_assoc h1.id h2.id).2, (joinsOpt_assoc h1.kind
        h2.kind).2, (joinsOpt_assoc h1.input h2.input).2, (joinsOpt_assoc h1.intro h2.intro).2, (joinsOpt_assoc
        h1.head h2.head).2, (joinsOpt_assoc h1.tail h2.tail).2, (joinsOpt_assoc h1.dataset h2.dataset).2,
        (joinsOpt_assoc h1.resource h2.resource).2, (joinsOpt_assoc h1.datatype h2.datatype).2⟩⟩
    rw [h2.prefixes, h1.prefixes, List.lookup_append, Option.or_assoc]
  unassoc := by
    intro x y z a b h1 h2
    refine ⟨
      ⟨joinOpt x.base y.base, y.prefixes ++ x.prefixes, joinOpt x.id y.id, joinOpt x.kind y.kind, joinOpt
        x.input y.input, joinOpt x.intro y.intro, joinOpt x.head y.head, joinOpt x.tail y.tail, joinOpt
        x.dataset y.dataset, joinOpt x.resource y.resource, joinOpt x.datatype y.datatype⟩,
      ⟨(joinsOpt_unassoc h1.base h2.base).1, fun p => List.lookup_append, (joinsOpt_unassoc h1.id h2.id).1,
        (joinsOpt_unassoc h1.kind h2.kind).1, (joinsOpt_unassoc h1.input h2.input).1, (joinsOpt_unassoc h1.intro
        h2.intro).1, (joinsOpt_unassoc h1.head h2.head).1, (joinsOpt_unassoc h1.tail h2.tail).1,
        (joinsOpt_unassoc h1.dataset h2.dataset).1, (joinsOpt_unassoc h1.resource h2.resource).1,
        (joinsOpt_unassoc h1.datatype h2.datatype).1⟩,
      ⟨(joinsOpt_unassoc h1.base h2.base).2, fun p => ?_, (joinsOpt_unassoc h1.id h2.id).2, (joinsOpt_unassoc
        h1.kind h2.kind).2, (joinsOpt_unassoc h1.input h2.input).2, (joinsOpt_unassoc h1.intro h2.intro).2,
        (joinsOpt_unassoc h1.head h2.head).2, (joinsOpt_unassoc h1.tail h2.tail).2, (joinsOpt_unassoc h1.dataset
        h2.dataset).2, (joinsOpt_unassoc h1.resource h2.resource).2, (joinsOpt_unassoc h1.datatype
        h2.datatype).2⟩⟩
    rw [h2.prefixes, h1.prefixes, List.lookup_append, Option.or_assoc]
  same := by
    intro x y m m' h1 h2
    have e_base := joinsOpt_unique h1.base h2.base
    have e_id := joinsOpt_unique h1.id h2.id
    have e_kind := joinsOpt_unique h1.kind h2.kind
    have e_input := joinsOpt_unique h1.input h2.input
    have e_intro := joinsOpt_unique h1.intro h2.intro
    have e_head := joinsOpt_unique h1.head h2.head
    have e_tail := joinsOpt_unique h1.tail h2.tail
    have e_dataset := joinsOpt_unique h1.dataset h2.dataset
    have e_resource := joinsOpt_unique h1.resource h2.resource
    have e_datatype := joinsOpt_unique h1.datatype h2.datatype
    have e_prefixes : ∀ p, m.prefixes.lookup p = m'.prefixes.lookup p := fun p => by rw [h1.prefixes, h2.prefixes]
    refine ⟨fun h => ?_, fun h => ?_⟩
    · constructor
      case prefixes => intro p; rw [← e_prefixes]; exact h.prefixes p
      case base => rw [← e_base]; exact h.base
      case id => rw [← e_id]; exact h.id
      case kind => rw [← e_kind]; exact h.kind
      case input => rw [← e_input]; exact h.input
      case intro => rw [← e_intro]; exact h.intro
      case head => rw [← e_head]; exact h.head
      case tail => rw [← e_tail]; exact h.tail
      case dataset => rw [← e_dataset]; exact h.dataset
      case resource => rw [← e_resource]; exact h.resource
      case datatype => rw [← e_datatype]; exact h.datatype
    · constructor
      case prefixes => intro p; rw [← e_prefixes]; exact h.prefixes p
      case base => rw [← e_base]; exact h.base
      case id => rw [← e_id]; exact h.id
      case kind => rw [← e_kind]; exact h.kind
      case input => rw [← e_input]; exact h.input
      case intro => rw [← e_intro]; exact h.intro
      case head => rw [← e_head]; exact h.head
      case tail => rw [← e_tail]; exact h.tail
      case dataset => rw [← e_dataset]; exact h.dataset
      case resource => rw [← e_resource]; exact h.resource
      case datatype => rw [← e_datatype]; exact h.datatype

end Verif.Rust
