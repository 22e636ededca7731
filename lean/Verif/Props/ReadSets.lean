import Verif.Props.ReadBackCli
import Verif.Props.DeriveReadBack

/-!
# A set read back (C90)

The members of a team are a set of records with an optional field. The dataset mentions one of them twice, and other people.
-/

set_option linter.unusedSectionVars false
set_option linter.unusedSimpArgs false

namespace Verif.Props.SetExample

open Hydrate Dehydrate Keeping
open DeExample (q val c)

/-- The members of a team. -/
def team : UnorderedLayout Term :=
  { input := 1, intro := 0,
    item := { intro := 1, value := val "person" 1, dataset := [q (.var 0) (c "member") (.var 1)] }, dataset := [] }

/-- A person: a name and possibly a nickname. -/
def person : ProductLayout Term :=
  { input := 1, intro := 0,
    fields := [
      (.text "name", { intro := 1, value := val "text" 1, dataset := [q (.var 0) (c "name") (.var 1)], required := true }),
      (.text "nick", { intro := 1, value := val "text" 1, dataset := [q (.var 0) (c "nick") (.var 1)], required := false })],
    dataset := [] }

/-- The registry. -/
def reg : Registry Term
  | .iri "team" => some (.unordered team)
  | .iri "person" => some (.product person)
  | .iri "text" => some (.textString DeExample.text)
  | _ => none

/-- The context. -/
def ctx : DeCtx := { reg, isIri := fun _ => true, xsd := Example.xsd }

/-- The first member. -/
def alice : Value := .map [(.text "name", .text "Alice")]

/-- The second member. -/
def robert : Value := .map [(.text "name", .text "Robert"), (.text "nick", .text "Bob")]

/-- The team. -/
def tree : Value := .list [alice, robert]

/-- A text. -/
def str (s : String) : Term := .literal ⟨s, .any "xsd:string"⟩

/-- What is written. -/
def quads : List (Quad Term) := [
  ⟨.blank "input0", .iri "member", .blank "b", none⟩,
  ⟨.blank "b", .iri "name", str "Alice", none⟩,
  ⟨.blank "input0", .iri "member", .blank "bb", none⟩,
  ⟨.blank "bb", .iri "name", str "Robert", none⟩,
  ⟨.blank "bb", .iri "nick", str "Bob", none⟩]

/-- What is read: `z` is a member with the same name as the first one; `y` is not a member. -/
def dataset : List (Quad Term) := quads ++ [
  ⟨.blank "input0", .iri "member", .blank "z", none⟩,
  ⟨.blank "z", .iri "name", str "Alice", none⟩,
  ⟨.blank "y", .iri "name", str "Yves", none⟩,
  ⟨.blank "y", .iri "nick", str "Y", none⟩]

/-- How it is read. -/
abbrev hy : HyCtx Term := HyCtx.ofTerms reg Example.xsd ReproduceExample.le dataset

theorem write : dehydrate ctx 4 tree (.iri "team") DeExample.opts = .ok (quads, [.blank "input0"]) := by decide +kernel

theorem reg_cases {P : Layout Term → Prop} (h1 : P (.unordered team)) (h2 : P (.product person))
    (h3 : P (.textString DeExample.text)) : ∀ ref l, reg ref = some l → P l := by
  intro ref l h
  unfold reg at h
  split at h <;> simp only [Option.some.injEq, reduceCtorEq] at h <;> subst h <;> assumption

theorem noSum (ref : Term) (l : SumLayout Term) : reg ref ≠ some (.sum l) :=
  fun h => reg_cases (P := fun l => ∀ p, l ≠ .sum p) (by simp) (by simp) (by simp) ref _ h l rfl

theorem noList (ref : Term) (l : OrderedLayout Term) : reg ref ≠ some (.ordered l) :=
  fun h => reg_cases (P := fun l => ∀ p, l ≠ .ordered p) (by simp) (by simp) (by simp) ref _ h l rfl

theorem noEnds (t : Term) : ¬ reg.EndsLists t := fun ⟨r, l, h, _⟩ => noList r l h

/-- The pattern of a property with one subject. -/
theorem edge {dataset : List (Quad Term)} {g : Option Term} (hg : g = none) {r : Term} {p : String} {τ : Subst Term} :
    IsMatch dataset ([some r] ++ List.replicate 1 none) (inGraph g [q (.var 0) (c p) (.var 1)]) τ ↔
      ∃ o, τ = [some r, some o] ∧ (⟨r, .iri p, o, none⟩ : Quad Term) ∈ dataset := by
  subst hg
  constructor
  · intro h
    obtain ⟨⟨s, p', o, gr⟩, hq, d1, d2, d3, d4⟩ := h.sat _ (by simp [inGraph]; rfl)
    have h0 := h.keeps 0 r rfl
    have hlen := h.length_eq
    have d1 : τ.get 0 = some s := d1
    have d2 : p' = .iri p := d2
    have d3 : τ.get 1 = some o := d3
    rw [h0] at d1
    injection d1 with d1
    subst d1 d2
    cases gr with
    | some _ => exact d4.elim
    | none =>
      refine ⟨o, ?_, hq⟩
      match τ, hlen with
      | [a, b], _ =>
        have e1 : a = some r := h0
        have e2 : b = some o := d3
        rw [e1, e2]
  · rintro ⟨o, rfl, hq⟩
    refine ⟨rfl, ?_, ?_, ?_⟩
    · intro i r' hi
      match i, hi with
      | 0, hi => exact hi
      | 1, hi => exact nomatch hi
      | i + 2, hi => simp [Subst.get] at hi
    · intro p' hp
      simp only [inGraph, List.map_cons, List.map_nil, List.mem_singleton] at hp
      subst hp
      exact ⟨_, hq, rfl, rfl, rfl, trivial⟩
    · intro i r' hi
      match i, hi with
      | 0, hi => exact .inl hi
      | 1, hi => exact .inr (by simp [inGraph, patsVars, QuadPat.vars, Pattern.vars, q, c])
      | i + 2, hi => simp [Subst.get] at hi

/-- A layout without patterns or introduced variables. -/
theorem own {dataset : List (Quad Term)} {l : Layout Term} (h : l.own = (0, [])) {g : Option Term} {r : Term} {σ : Subst Term} :
    l.OwnMatch dataset g [r] σ ↔ σ = [some r] := by
  unfold Layout.OwnMatch
  rw [h]
  constructor
  · intro h
    have hlen := h.length_eq
    have h0 := h.keeps 0 r rfl
    match σ, hlen with
    | [a], _ =>
      have e1 : a = some r := h0
      rw [e1]
  · rintro rfl
    exact ⟨rfl, fun _ _ h => h, by simp [inGraph], fun _ _ h => .inl h⟩

/-- What is read with a format of one variable. -/
theorem format {r o : Term} {ins : List Term} {g : Option Term}
    (h1 : List.Forall₂ (fun (p : Pattern Term) r' => p.Denotes (Subst.get [some r, some o]) r') [.var 1] ins)
    (h2 : GraphDenotes none none [some r, some o] g) : ins = [o] ∧ g = none := by
  refine ⟨?_, h2⟩
  cases h1 with
  | cons h h1 =>
    cases h1
    have h : some o = some _ := h
    rw [← Option.some.inj h]

theorem sub {n : Nat} {layout : String} {r o : Term} {v : Value} :
    SubSays (Says hy n) none (val layout 1) [some r, some o] v ↔ Says hy n none (.iri layout) [o] v := by
  constructor
  · rintro ⟨ins, g, h1, h2, h3⟩
    obtain ⟨rfl, rfl⟩ := format h1 h2
    exact h3
  · exact fun h => ⟨[o], none, .cons rfl .nil, rfl, h⟩

theorem says_text {n : Nat} {s : String} : Says hy (n + 1) none (.iri "text") [str s] (.text s) :=
  ⟨.textString DeExample.text, [some (str s)], rfl, by simp [Layout.inputCount], (own rfl).2 rfl, s,
    ⟨str s, ⟨s, .any "xsd:string"⟩, "xsd:string", rfl, by simp [HyCtx.ofTerms, str, DeExample.text], rfl, rfl⟩, rfl⟩

/-- A member without a nickname. -/
theorem says_alice {n : Nat} {r : Term} (h : (⟨r, .iri "name", str "Alice", none⟩ : Quad Term) ∈ dataset) :
    Says hy (n + 2) none (.iri "person") [r] alice := by
  refine ⟨.product person, [some r], rfl, by simp [Layout.inputCount, person], (own rfl).2 rfl, _, rfl, ?_, ?_⟩
  · intro k x hx
    simp only [List.mem_singleton, Prod.mk.injEq] at hx
    obtain ⟨rfl, rfl⟩ := hx
    exact ⟨_, [some r, some (str "Alice")], List.mem_cons_self, (edge rfl).2 ⟨_, rfl, h⟩, sub.2 says_text⟩
  · intro k fd hf hreq
    simp only [person, List.mem_cons, Prod.mk.injEq, List.not_mem_nil, or_false] at hf
    rcases hf with ⟨rfl, rfl⟩ | ⟨rfl, rfl⟩
    · simp
    · exact nomatch hreq

/-- The other one. -/
theorem says_robert {n : Nat} : Says hy (n + 2) none (.iri "person") [.blank "bb"] robert := by
  refine ⟨.product person, [some (.blank "bb")], rfl, by simp [Layout.inputCount, person], (own rfl).2 rfl, _, rfl, ?_, ?_⟩
  · intro k x hx
    simp only [List.mem_cons, Prod.mk.injEq, List.not_mem_nil, or_false] at hx
    rcases hx with ⟨rfl, rfl⟩ | ⟨rfl, rfl⟩
    · exact ⟨_, [some (.blank "bb"), some (str "Robert")], List.mem_cons_self, (edge rfl).2 ⟨_, rfl, by decide +kernel⟩,
        sub.2 says_text⟩
    · exact ⟨_, [some (.blank "bb"), some (str "Bob")], List.mem_cons_of_mem _ List.mem_cons_self,
        (edge rfl).2 ⟨_, rfl, by decide +kernel⟩, sub.2 says_text⟩
  · intro k fd hf _
    simp only [person, List.mem_cons, Prod.mk.injEq, List.not_mem_nil, or_false] at hf
    rcases hf with ⟨rfl, rfl⟩ | ⟨rfl, rfl⟩ <;> simp

/-- The name of a person that the dataset says. -/
theorem named {n : Nat} {r : Term} {m : List (Value × Value)} (h : Says hy (n + 2) none (.iri "person") [r] (.map m)) {s : String}
    (hs : (.text "name", .text s) ∈ m) : (⟨r, .iri "name", str s, none⟩ : Quad Term) ∈ dataset := by
  obtain ⟨l, σ, hl, -, hσ, h⟩ := h
  obtain rfl : l = .product person := Option.some.inj hl.symm
  obtain rfl := (own rfl).1 hσ
  obtain ⟨m', hm, h, -⟩ := h
  injection hm with hm
  subst hm
  obtain ⟨fd, τ, hf, hτ, hsub⟩ := h _ _ hs
  simp only [person, List.mem_cons, Prod.mk.injEq, List.not_mem_nil, or_false] at hf
  rcases hf with ⟨-, rfl⟩ | ⟨hk, -⟩
  · obtain ⟨o, rfl, hq⟩ := (edge rfl).1 hτ
    obtain ⟨l, σ, hl, -, hσ, h⟩ := sub.1 hsub
    obtain rfl : l = .textString DeExample.text := Option.some.inj hl.symm
    obtain rfl := (own rfl).1 hσ
    obtain ⟨s', ⟨r', lit, i, h1, h2, h3, h4⟩, h5⟩ := h
    have h1 : some o = some r' := h1
    injection h1 with h1
    subst h1
    have h4 : lit.value = s' := by injection h4
    injection h5 with h5
    injection h5 with h5
    subst h5
    have hmem := List.mem_singleton_self lit
    rw [← h2] at hmem
    obtain ⟨hm1, hm2⟩ := List.mem_filter.1 hmem
    cases o with
    | literal lit' =>
      simp only [HyCtx.ofTerms, List.mem_singleton] at hm1
      subst hm1
      have : lit = ⟨s, .any "xsd:string"⟩ := by
        obtain ⟨lv, lt⟩ := lit
        simp only at h4 h3
        subst h4
        rw [h3] at hm2 ⊢
        simp [HyCtx.ofTerms, DeExample.text] at hm2
        rw [hm2]
      rw [this] at hq
      exact hq
    | iri _ => simp [HyCtx.ofTerms] at hm1
    | blank _ => simp [HyCtx.ofTerms] at hm1
  · simp [Value.text] at hk

theorem exact_text (n : Nat) {g : Option Term} {r : Term} {v : Value} : Exact hy n g (.iri "text") [r] v := by
  cases n with
  | zero => trivial
  | succ n =>
    intro l σ hl _
    obtain rfl : l = .textString DeExample.text := Option.some.inj hl.symm
    refine ⟨?_, fun σ₀ pats fmt v' τ ins g' hp => nomatch hp⟩
    cases v <;> trivial

/-- Of a person, nothing else is said. -/
theorem exact_person (n : Nat) {r : Term} {m : List (Value × Value)} (hname : .text "name" ∈ m.map Prod.fst)
    (hnick : .text "nick" ∉ m.map Prod.fst → ∀ o, (⟨r, .iri "nick", o, none⟩ : Quad Term) ∉ dataset) :
    Exact hy n none (.iri "person") [r] (.map m) := by
  cases n with
  | zero => trivial
  | succ n =>
    intro l σ hl hσ
    obtain rfl : l = .product person := Option.some.inj hl.symm
    obtain rfl := (own rfl).1 hσ
    refine ⟨?_, fun σ₀ pats fmt v' τ ins g' hp hτ h1 h2 _ => ?_⟩
    · intro k fd hf hopt hk τ hτ
      simp only [person, List.mem_cons, Prod.mk.injEq, List.not_mem_nil, or_false] at hf
      rcases hf with ⟨rfl, rfl⟩ | ⟨rfl, rfl⟩
      · exact hk hname
      · obtain ⟨o, -, hq⟩ := (edge rfl).1 hτ
        exact hnick hk o hq
    · cases hp with
      | field hf _ =>
        simp only [person, List.mem_cons, Prod.mk.injEq, List.not_mem_nil, or_false] at hf
        rcases hf with ⟨-, rfl⟩ | ⟨-, rfl⟩ <;>
        · obtain ⟨o, rfl, -⟩ := (edge rfl).1 hτ
          obtain ⟨rfl, rfl⟩ := format h1 h2
          exact exact_text n

theorem members : ∀ o, (⟨.blank "input0", .iri "member", o, none⟩ : Quad Term) ∈ dataset →
    o = .blank "b" ∨ o = .blank "bb" ∨ o = .blank "z" := by
  intro o ho
  simp only [dataset, quads, List.cons_append, List.nil_append, List.mem_cons, Quad.mk.injEq, List.not_mem_nil, or_false] at ho
  simpa using ho

/-- Of the team, nothing else is said. -/
theorem exact_team : Exact hy 4 none (.iri "team") [.blank "input0"] tree := by
  intro l σ hl hσ
  obtain rfl : l = .unordered team := Option.some.inj hl.symm
  obtain rfl := (own rfl).1 hσ
  refine ⟨?_, fun σ₀ pats fmt v' τ ins g' hp hτ h1 h2 hs => ?_⟩
  · intro τ hτ
    obtain ⟨o, rfl, hq⟩ := (edge rfl).1 hτ
    rcases members o hq with rfl | rfl | rfl
    · exact ⟨alice, by simp, sub.2 (says_alice (by decide +kernel))⟩
    · exact ⟨robert, by simp, sub.2 says_robert⟩
    · exact ⟨alice, by simp, sub.2 (says_alice (by decide +kernel))⟩
  · unfold tree at hp
    cases hp with
    | element hv =>
      obtain ⟨o, rfl, hq⟩ := (edge rfl).1 hτ
      obtain ⟨rfl, rfl⟩ := format h1 h2
      simp only [List.mem_cons, List.not_mem_nil, or_false] at hv
      rcases hv with rfl | rfl
      · have hn := named (n := 1) hs (s := "Alice") (by simp)
        refine exact_person 3 (by simp) fun _ o' ho' => ?_
        revert hn ho'
        rcases members o hq with rfl | rfl | rfl <;> simp [dataset, quads, str]
      · exact exact_person 3 (by simp) fun h => absurd (by simp) h

theorem closed : reg.Closed := by
  unfold Registry.Closed
  refine reg_cases ?_ ?_ ?_ <;>
    simp [team, person, DeExample.text, Layout.Closed, ItemLayout.Closed, PatsBelow, patsVars,
      QuadPat.vars, Pattern.vars, ValueFormat.Below, Pattern.Below, q, val, c]

theorem sorted : reg.Sorted := by
  intro ref l h
  exact reg_cases (P := fun l => ∀ p, l = .product p → SortedKeys p.fields)
    (by simp) (by rintro p ⟨⟩; unfold SortedKeys; decide +kernel) (by simp) ref _ h l rfl

theorem wellTyped : reg.WellTyped := by
  unfold Registry.WellTyped
  refine reg_cases ?_ ?_ ?_ <;>
    simp [team, person, DeExample.text, Layout.formats, val, reg, Layout.inputCount]

theorem follows : ∀ ref l, reg ref = some l → l.Follows (SingleValued dataset) := by
  refine reg_cases ⟨trivial, trivial⟩ ⟨trivial, ?_⟩ ⟨trivial, trivial⟩
  simp only [person, List.mem_cons, List.not_mem_nil, or_false, forall_eq_or_imp, forall_eq]
  refine ⟨⟨?_, ?_, .inr ⟨_, rfl, ?_⟩, trivial⟩, ⟨?_, ?_, .inr ⟨_, rfl, ?_⟩, trivial⟩⟩
  case refine_3 => unfold SingleValued; decide +kernel
  case refine_6 => unfold SingleValued; decide +kernel
  all_goals simp [boundVars, Pattern.BoundIn, q, c, patsVars, QuadPat.vars, Pattern.vars]

theorem endsFresh : EndsFresh ctx.reg tree DeExample.opts :=
  ⟨⟨fun r l h => absurd h (noList r l), fun r l h => absurd h (noList r l), fun _ _ _ _ _ t h => absurd h (noEnds t),
    fun r l h => absurd h (noList r l)⟩, fun t h => absurd h (noEnds t), fun t h => absurd h (noEnds t),
    fun t h => absurd h (noEnds t)⟩

theorem tree_sorted : tree.Sorted := by
  refine .list _ ?_
  simp only [List.mem_cons, List.not_mem_nil, or_false, forall_eq_or_imp, forall_eq]
  refine ⟨.map _ (by unfold SortedKeys; decide +kernel) ?_, .map _ (by unfold SortedKeys; decide +kernel) ?_⟩
  · simp only [List.mem_cons, List.not_mem_nil, or_false, forall_eq]
    exact .literal _
  · simp only [List.mem_cons, List.not_mem_nil, or_false, forall_eq_or_imp, forall_eq]
    exact ⟨.literal _, .literal _⟩

theorem unambiguous : Unambiguous hy none (.iri "team") [.blank "input0"] := by
  refine unambiguous_follows wellTyped follows ?_
  intro l k hl hk
  obtain rfl : l = .unordered team := Option.some.inj hl.symm
  simpa [Layout.inputCount, team] using hk

/-- The team is read back. -/
example : ∃ w, SameTree reg (.iri "team") tree w.untype ∧ ∃ N, ∀ m, N ≤ m → hydrate hy m none (.iri "team") [.blank "input0"] = .ok w := by
  refine C90_sets ctx Example.xsd_laws closed sorted ?_ (fun ref l h => absurd h (noSum ref l)) ?_
    4 tree (.iri "team") DeExample.opts (fun _ => .refl _) quads _ write ReproduceExample.le ReproduceExample.le_total dataset
    (by decide +kernel) (by decide +kernel) tree_sorted endsFresh (fun ref l h => absurd h (noSum ref l)) unambiguous exact_team
  · refine reg_cases ?_ ?_ ?_ <;> simp [team, person, DeExample.text, Layout.formats, val]
  · refine reg_cases ?_ ?_ ?_ <;>
      simp [team, person, DeExample.text, Layout.Binds, ValueFormat.BoundIn, Pattern.BoundIn, boundVars,
        patsVars, QuadPat.vars, Pattern.vars, q, val, c]

/-- The member mentioned twice is read twice. -/
example : (hydrate hy 4 none (.iri "team") [.blank "input0"]).map TypedValue.untype = .ok (.list [alice, alice, robert]) := by
  decide +kernel

/-- The team in a graph; the default graph speaks of another member. -/
def all : List (Quad Term) := [⟨.blank "input0", .iri "member", .blank "y", none⟩] ++ dataset.putIn (.iri "g")

example : ∃ w, SameTree reg (.iri "team") tree w.untype ∧ ∃ N, ∀ m, N ≤ m →
    hydrate (HyCtx.ofTerms reg Example.xsd ReproduceExample.le all) m (some (.iri "g")) (.iri "team") [.blank "input0"] = .ok w := by
  have hall : all.graph (some (.iri "g")) = dataset := by decide +kernel
  refine C90_in_graph_sets ctx Example.xsd_laws closed sorted ?_ (fun ref l h => absurd h (noSum ref l)) ?_
    4 tree (.iri "team") DeExample.opts (fun _ => .refl _) quads _ write ?_ ReproduceExample.le ReproduceExample.le_total
    (some (.iri "g")) all (by decide +kernel) (by decide +kernel) tree_sorted endsFresh (fun ref l h => absurd h (noSum ref l))
    (hall ▸ unambiguous) (hall ▸ exact_team)
  · refine reg_cases ?_ ?_ ?_ <;> simp [team, person, DeExample.text, Layout.formats, val]
  · refine reg_cases ?_ ?_ ?_ <;>
      simp [team, person, DeExample.text, Layout.Binds, ValueFormat.BoundIn, Pattern.BoundIn, boundVars,
        patsVars, QuadPat.vars, Pattern.vars, q, val, c]
  · refine fun ref' _ => reg_cases ?_ ?_ ?_ ref' <;>
      simp [team, person, DeExample.text, Layout.patterns, Layout.formats, q, val]

end Verif.Props.SetExample

namespace Verif.Props.Witness

open Hydrate SetExample

/-- Another person. -/
def yves : Value := .map [(.text "name", .text "Yves"), (.text "nick", .text "Y")]

theorem same_text {v w : Value} (h : SameTree reg (.iri "text") v w) : v = w := by
  cases h with
  | leaf => rfl
  | product m m' hl => exact absurd (Option.some.inj hl) (by simp)
  | unordered vs vs' f g hl => exact absurd (Option.some.inj hl) (by simp)
  | ordered vs vs' hl => exact absurd (Option.some.inj hl) (by simp)
  | sized vs vs' hl => exact absurd (Option.some.inj hl) (by simp)
  | sum v v' hl => exact absurd (Option.some.inj hl) (by simp)

theorem not_same_yves {v : Value} (hv : v ∈ [alice, robert]) : ¬ SameTree reg (.iri "person") v yves := by
  intro h
  generalize hy : yves = y at h
  cases h with
  | leaf => subst hy; revert hv; decide
  | product m m' hl hk hf hs =>
    obtain rfl := Layout.product.inj (Option.some.inj hl)
    obtain rfl := Value.map.inj hy
    simp only [List.mem_cons, List.not_mem_nil, or_false, alice, robert, Value.map.injEq] at hv
    rcases hv with rfl | rfl
    · exact absurd hk (by decide)
    · have := hs (.text "name") (.text "Robert") (.text "Yves") _ (by simp) (by simp) (List.mem_cons_self ..)
      exact absurd (same_text this) (by decide)
  | unordered vs vs' f g hl => exact absurd (Option.some.inj hl) (by simp)
  | ordered vs vs' hl => exact absurd (Option.some.inj hl) (by simp)
  | sized vs vs' hl => exact absurd (Option.some.inj hl) (by simp)
  | sum v v' hl => exact absurd (Option.some.inj hl) (by simp)

/-- A third member. -/
def thirdMember : List (Quad Term) := dataset ++ [⟨.blank "input0", .iri "member", .blank "y", none⟩]

/-- A set is not read back when the dataset mentions another item: that item is read too. -/
theorem C90_other_item :
    (∀ q ∈ quads, q ∈ thirdMember) ∧
    (hydrate (HyCtx.ofTerms reg Example.xsd ReproduceExample.le thirdMember) 4 none (.iri "team") [.blank "input0"]).map
      TypedValue.untype = .ok (.list [alice, alice, robert, yves]) ∧
    ¬ SameTree reg (.iri "team") tree (.list [alice, alice, robert, yves]) := by
  refine ⟨by decide +kernel, by decide +kernel, fun h => ?_⟩
  generalize ht : tree = t at h
  generalize hw : Value.list [alice, alice, robert, yves] = w at h
  cases h with
  | leaf => subst ht; exact absurd hw (by decide)
  | product m m' hl => exact absurd (Option.some.inj hl) (by simp)
  | unordered vs vs' f g hl hf hs hg hgs =>
    obtain rfl := Layout.unordered.inj (Option.some.inj hl)
    obtain rfl := Value.list.inj ht
    obtain rfl := Value.list.inj hw
    exact not_same_yves (hg yves (by simp)) (hgs yves (by simp))
  | ordered vs vs' hl => exact absurd (Option.some.inj hl) (by simp)
  | sized vs vs' hl => exact absurd (Option.some.inj hl) (by simp)
  | sum v v' hl => exact absurd (Option.some.inj hl) (by simp)

end Verif.Props.Witness

/-! ## A set from a layout file to the commands (C92) -/

namespace Verif.Props.TagExample

open Hydrate Dehydrate Keeping
open CoExample (ex)

/-- Tags: `{ "type": "set", "id": "ex:Tags", "item": { "property": "ex:tag", "value": { "type": "string" } } }`. -/
def tagsDoc : Json :=
  .object [("type", .string "set"), ("id", .string "https://example.org/Tags"),
    ("prefixes", .object [("ex", .string "https://example.org/")]),
    ("item", .object [("property", .string "ex:tag"), ("value", .object [("type", .string "string")])])]

/-- Their definition. -/
def tags : SLayout :=
  .unordered { id := some "https://example.org/Tags", prefixes := [("ex", "https://example.org/")] }
    (.mk (.one "value") (.layout (.layout (.textString {} none none none))) [] (some (.iri "ex:tag")))

set_option maxRecDepth 10000 in
theorem parse_tags : parseLayout SpExample.lib tagsDoc = .ok tags := by rfl

def built : Builder Term := (tags.buildWithContext SyExample.ctx ⟨[], 0⟩).2

/-- The compiled layouts. -/
def layouts : List (Term × Layout Term × List (Term × Term)) :=
  [(.blank "", .textString {
      input := 1, intro := 0, dataset := [], resource := .var 0, datatype := .iri "http://www.w3.org/2001/XMLSchema#string",
      pattern := none }, []),
    (ex "Tags", .unordered {
      input := 1, intro := 0,
      item := { intro := 1, value := ⟨.blank "", [.var 1], none⟩, dataset := [⟨.var 0, .res (ex "tag"), .var 1, none⟩] },
      dataset := [] }, [])]

def reg : Registry Term := Builder.registry layouts

/-- The command line tool. -/
noncomputable def env : FormatEnv Rat where
  load := ⟨SpExample.lib, SyExample.ctx, false, 0⟩
  prelude := preludeRegistry Term.iri
  xsd := CcExample.xsd
  isIri := CoExample.isIri
  le := ReproduceExample.le
  options := .default id
  depth := 4
  toF64 := id
  ofF64 := some
  collect := id

/-- `tldr -l tags.json --no-prelude`. -/
def args : CliArgs := ⟨[.json tagsDoc], [], true⟩

theorem loaded : loadFiles env.load args = .ok (layouts, .some (ex "Tags")) := by
  have h : (loadDocument env.load 0 0 tagsDoc) = .ok (ex "Tags", layouts, built.next) := by
    have h1 : parseLayout env.load.parse tagsDoc = .ok tags := parse_tags
    have h2 : tags.buildWithContext env.load.ctx ⟨[], 0⟩ = (.ok (ex "Tags"), built) := by
      have h : (tags.buildWithContext SyExample.ctx ⟨[], 0⟩).1 = .ok (ex "Tags") := by decide +kernel
      exact Prod.ext h rfl
    have h3 : buildAll env.load.debug env.load.fuel built.layouts = .ok layouts := by decide +kernel
    simp only [loadDocument, h1, Out.mapErr, Out.bind, h2, h3, Out.ofTotal]
  have h' : insertLayouts env.load.ctx.le layouts [] = .ok layouts := by decide +kernel
  simp only [loadFiles, args, loadLayouts, loadLayout, h, h', loadIncludes, Out.bind, Out.mapErr, DefaultLayout.set]

theorem registry_eq : env.registry args layouts = reg := by
  simp only [FormatEnv.registry, args, if_true]
  rw [C36_absent]
  rfl

theorem reg_cases {P : Layout Term → Prop} (h1 : ∀ e ∈ layouts, P e.2.1) : ∀ r l, reg r = some l → P l := by
  intro r l h
  obtain ⟨x, hx, hl⟩ := Option.map_eq_some_iff.1 (show (layouts.lookup r).map (·.1) = some l from h)
  exact hl ▸ h1 _ (mem_of_lookup' hx)

theorem oneInput : args.OneInput env.load := by
  intro j hj l hl l' env' hs
  have hj : SourceFile.json j = .json tagsDoc := by simpa [args] using hj
  cases hj
  cases hl.symm.trans parse_tags
  have : l' = tags ∨ l' = .textString {} none none none := by
    induction hs with
    | refl => exact .inl rfl
    | nested _ h1 h2 h3 ih =>
      right
      rcases ih with rfl | rfl <;> simp [SLayout.refs, tags, SItem.ref, SFormat.ref] at h3
      exact h3
  rcases this with rfl | rfl
  · trivial
  · rfl

/-- `["a", "b"]`. -/
def doc : Json := .array [.string "a", .string "b"]

def tree : Value := .list [.text "a", .text "b"]

def input : Input Rat := ⟨none, some doc, none⟩

/-- A text. -/
def str (s : String) : Term := .literal ⟨s, .any "http://www.w3.org/2001/XMLSchema#string"⟩

/-- What is written. -/
def quads : List (Quad Term) := [⟨.blank "input0", ex "tag", str "a", none⟩, ⟨.blank "input0", ex "tag", str "b", none⟩]

/-- What is read: other things have tags. -/
def data : List (Quad Term) := ⟨.blank "input1", ex "tag", str "c", none⟩ :: quads

def input' : Input Rat := ⟨some data, none, none⟩

theorem written : Dehydrate.dehydrate ⟨reg, env.isIri, env.xsd⟩ env.depth tree (ex "Tags") env.options =
    .ok (quads, [.blank "input0"]) := by decide +kernel

/-- `tldr -l tags.json --no-prelude dehydrate`. -/
theorem printed : runCli env args (some (.dehydrate .json .nQuads none)) input = .ok (some (.nQuads quads)) := by
  have h1 : doc.toValue = .ok tree := by decide +kernel
  have h2 := written
  rw [← registry_eq] at h2
  simp only [runCli, loaded, Out.bind_ok, Command.run, DefaultLayout.get, TreeFormat.load, input, h1, Out.ofTotal, h2, Out.mapErr,
    RdfFormat.write]

theorem wellTyped : reg.WellTyped := by
  refine reg_cases ?_
  simp only [layouts, List.mem_cons, List.not_mem_nil, or_false, forall_eq_or_imp, forall_eq]
  refine ⟨by simp [Layout.formats], ?_⟩
  simp only [Layout.formats, List.map_cons, List.map_nil, List.mem_cons, List.not_mem_nil, or_false, forall_eq]
  exact ⟨_, rfl, fun k hk => by simpa [Layout.inputCount] using hk⟩

theorem noSum (r : Term) (l : SumLayout Term) : reg r ≠ some (.sum l) :=
  fun h => reg_cases (P := fun l => ∀ p, l ≠ .sum p) (by simp [layouts]) r _ h l rfl

theorem noList (r : Term) (l : OrderedLayout Term) : reg r ≠ some (.ordered l) :=
  fun h => reg_cases (P := fun l => ∀ p, l ≠ .ordered p) (by simp [layouts]) r _ h l rfl

theorem noEnds (t : Term) : ¬ reg.EndsLists t := fun ⟨r, l, h, _⟩ => noList r l h

theorem follows : ∀ r l, reg r = some l → l.Follows (SingleValued data.dedup) := by
  refine reg_cases ?_
  simp only [layouts, List.mem_cons, List.not_mem_nil, or_false, forall_eq_or_imp, forall_eq]
  exact ⟨⟨trivial, trivial⟩, ⟨trivial, trivial⟩⟩

theorem data_dedup : data.dedup = data := by decide +kernel

/-- How it is read. -/
noncomputable abbrev hy : HyCtx Term := HyCtx.ofTerms reg env.xsd env.le data.dedup

theorem says_text {n : Nat} {s : String} : Says hy (n + 1) none (.blank "") [str s] (.text s) :=
  ⟨_, [some (str s)], rfl, by simp [Layout.inputCount], (SetExample.own rfl).2 rfl, s,
    ⟨str s, ⟨s, .any "http://www.w3.org/2001/XMLSchema#string"⟩, _, rfl, by simp [HyCtx.ofTerms, str], rfl, rfl⟩, rfl⟩

theorem exact_text (n : Nat) {g : Option Term} {r : Term} {v : Value} : Exact hy n g (.blank "") [r] v := by
  cases n with
  | zero => trivial
  | succ n =>
    intro l σ hl _
    have hl := Option.some.inj hl
    subst hl
    refine ⟨?_, fun σ₀ pats fmt v' τ ins g' hp => nomatch hp⟩
    cases v <;> trivial

/-- Of these tags, nothing else is said. -/
theorem exact_tags {l : List Value} (ha : .text "a" ∈ l) (hb : .text "b" ∈ l) :
    Exact hy 4 none (ex "Tags") [.blank "input0"] (.list l) := by
  intro l σ hl hσ
  have hl := Option.some.inj hl
  subst hl
  obtain rfl := (SetExample.own rfl).1 hσ
  refine ⟨?_, fun σ₀ pats fmt v' τ ins g' hp hτ h1 h2 hs => ?_⟩
  · intro τ hτ
    obtain ⟨o, rfl, hq⟩ := (SetExample.edge rfl).1 hτ
    have : o = str "a" ∨ o = str "b" := by
      change _ ∈ data.dedup at hq
      rw [data_dedup] at hq
      simpa [data, quads, str, ex] using hq
    rcases this with rfl | rfl
    · exact ⟨.text "a", ha, [str "a"], none, .cons rfl .nil, rfl, says_text⟩
    · exact ⟨.text "b", hb, [str "b"], none, .cons rfl .nil, rfl, says_text⟩
  · cases hp with
    | element hv =>
      obtain ⟨o, rfl, hq⟩ := (SetExample.edge rfl).1 hτ
      obtain ⟨rfl, rfl⟩ := SetExample.format h1 h2
      exact exact_text 3

theorem endsFresh (v : Value) : EndsFresh reg v env.options :=
  ⟨⟨fun r l h => absurd h (noList r l), fun r l h => absurd h (noList r l), fun _ _ _ _ _ t h => absurd h (noEnds t),
    fun r l h => absurd h (noList r l)⟩, fun t h => absurd h (noEnds t), fun t h => absurd h (noEnds t),
    fun t h => absurd h (noEnds t)⟩

theorem unambiguous : Unambiguous hy none (ex "Tags") [.blank "input0"] := by
  refine unambiguous_follows wellTyped follows ?_
  intro l k hl hk
  have hl := Option.some.inj hl
  subst hl
  simpa [Layout.inputCount] using hk

theorem graph : ∀ r l, reg r = some l → ∀ f ∈ l.formats, ∀ p, f.graph ≠ some (some p) :=
  reg_cases (by simp [layouts, Layout.formats])

theorem closed : reg.Closed := by
  unfold Registry.Closed
  refine reg_cases ?_
  simp [layouts, Layout.Closed, ItemLayout.Closed, PatsBelow, patsVars, QuadPat.vars, Pattern.vars, ValueFormat.Below, Pattern.Below]

theorem binds : ∀ r l, reg r = some l → l.Binds := by
  refine reg_cases ?_
  simp [layouts, Layout.Binds, ValueFormat.BoundIn, Pattern.BoundIn, boundVars, patsVars, QuadPat.vars, Pattern.vars]

-- The tags are read back.
example : ∃ j' u, j'.toValue = .ok u ∧ SameTree reg (ex "Tags") tree u ∧ ∃ N, ∀ n, N ≤ n →
    runCli { env with depth := n } args (some (.hydrate .nQuads .json none [.blank "input0"])) input' = .ok (some (.json j')) := by
  obtain ⟨reg', d, ref, v, values, h1, h2, h3, h4, h5⟩ := C92_sets env rfl ⟨CoExample.xsd_laws.bool, CoExample.xsd_laws.decimal⟩
    ReproduceExample.le_total (fun _ => .refl _) args oneInput none input doc rfl quads printed
  have hp := prepare_of_loadFiles env args _ _ loaded
  rw [registry_eq] at hp
  cases h1.symm.trans hp
  cases h2
  have hv : v = tree := by
    have : doc.toValue = .ok tree := by decide +kernel
    rw [h3] at this
    injection this
  subst hv
  have h6 := h4.symm.trans written
  injection h6 with h6
  injection h6 with _ h6
  subst h6
  refine h5 graph (fun r l h => absurd h (noSum r l)) binds ?_ (endsFresh _) input' data rfl (by decide +kernel)
    (fun r l h => absurd h (noSum r l)) unambiguous (exact_tags (by simp) (by simp))
  refine .list _ ?_
  simp only [List.mem_cons, List.not_mem_nil, or_false, forall_eq_or_imp, forall_eq]
  exact ⟨.textString _, .textString _⟩

/-- The same tags, in another order, one of them twice. -/
def tree' : Value := .list [.text "b", .text "a", .text "b"]

theorem written' : Dehydrate.dehydrate ⟨reg, env.isIri, env.xsd⟩ env.depth tree' (ex "Tags") env.options =
    .ok (quads, [.blank "input0"]) := by decide +kernel

-- They are written to the same dataset.
example : ∃ u, SameTree reg (ex "Tags") tree u ∧ SameTree reg (ex "Tags") tree' u := by
  refine C90_one_tree_sets ⟨reg, env.isIri, env.xsd⟩ ⟨CoExample.xsd_laws.bool, CoExample.xsd_laws.decimal⟩ closed
    (fun r l h => ?_) graph (fun r l h => absurd h (noSum r l)) binds (ex "Tags") 4 4 tree tree' env.options env.options
    (fun _ => .refl _) (fun _ => .refl _) _ _ _ written written' env.le ReproduceExample.le_total data.dedup (List.nodup_dedup _)
    (by decide +kernel) (by decide +kernel) ?_ ?_ (endsFresh _) (endsFresh _) (fun r l h => absurd h (noSum r l)) unambiguous
    (exact_tags (by simp) (by simp)) (exact_tags (by simp) (by simp))
  · exact absurd rfl (reg_cases (P := fun l => ∀ p, l ≠ .product p) (by simp [layouts]) r _ h l)
  all_goals
    refine .list _ ?_
    simp only [List.mem_cons, List.not_mem_nil, or_false, forall_eq_or_imp, forall_eq]
    exact (by first | exact ⟨.literal _, .literal _⟩ | exact ⟨.literal _, .literal _, .literal _⟩)

end Verif.Props.TagExample

/-! ## The team as a value of derived types (C63) -/

namespace Verif.Props.SetExample

open Hydrate Dehydrate Derived Keeping

/-- The types of the team and of its members are derived, texts are not. -/
def types : SeCtx where
  reg := reg
  prim _ := none
  text := SerExample.ctx.text
  isIri _ := true

theorem noNumber (ref : Term) (l : DataLayout Term) : reg ref ≠ some (.number l) :=
  fun h => reg_cases (P := fun l => ∀ p, l ≠ .number p) (by simp) (by simp) (by simp) ref _ h l rfl

theorem noBool (ref : Term) (l : DataLayout Term) : reg ref ≠ some (.boolean l) :=
  fun h => reg_cases (P := fun l => ∀ p, l ≠ .boolean p) (by simp) (by simp) (by simp) ref _ h l rfl

theorem isText {ref : Term} {l : TextLayout Term} (h : reg ref = some (.textString l)) : ref = .iri "text" ∧ l = DeExample.text := by
  unfold reg at h
  split at h <;> simp only [Option.some.injEq, reduceCtorEq, Layout.textString.injEq] at h
  exact ⟨rfl, h.symm⟩

theorem seLaws : SeLaws types where
  prim _ _ h := nomatch h
  ofInput := by
    refine reg_cases ?_ ?_ ?_ <;> simp [Layout.OfInput, DeExample.text]
  datatype := by
    intro ref l d h
    exact reg_cases (P := fun l => ∀ d, l.datatype? = some d → ∃ i, d = .iri i) (by simp [Layout.datatype?])
      (by simp [Layout.datatype?]) (by simp [Layout.datatype?, DeExample.text]) ref l h d

theorem seText : SeText types Example.xsd where
  boolType _ _ h := absurd h (noBool _ _)
  numType _ _ _ h := absurd h (noNumber _ _)
  boolean _ _ _ h := absurd h (noBool _ _)
  number _ _ _ _ h := absurd h (noNumber _ _)
  text _ _ _ _ := rfl

/-- The context of deserialization. -/
def reading (ds : List (Quad Term)) : DsCtx Term := .ofTerms types SerExample.fromLiteral SerExample.parseInt ds

theorem dsLaws (ds : List (Quad Term)) : DsLaws (reading ds) Example.xsd where
  prim _ _ h := nomatch h
  datatype := by
    intro ref l d h
    exact reg_cases (P := fun l => ∀ d, l.datatype? = some d →
        (reading ds).irisOf d = [(reading ds).datatypeIri d] ∧
        (reading ds).datatypeIri d ≠ "http://www.w3.org/1999/02/22-rdf-syntax-ns#langString")
      (by simp [Layout.datatype?]) (by simp [Layout.datatype?])
      (by rintro d ⟨⟩; exact ⟨rfl, by simp [reading, DsCtx.ofTerms, DeExample.text]⟩) ref l h d
  boolType _ _ h := absurd h (noBool _ _)
  numType _ _ h := absurd h (noNumber _ _)
  boolean _ _ _ _ h := absurd h (noBool _ _)
  number _ _ _ _ h := absurd h (noNumber _ _)
  bytes := by
    intro ref l s h
    exact absurd rfl (reg_cases (P := fun l => ∀ p, l ≠ .byteString p) (by simp) (by simp) (by simp) ref _ h l)
  text := by
    intro ref l s lit h h'
    obtain ⟨rfl, rfl⟩ := isText h
    simp only [reading, DsCtx.ofTerms, SerExample.fromLiteral, if_true, Option.some.injEq] at h'
    exact h'.symm
  int _ _ h := by simp [reading, DsCtx.ofTerms, SerExample.parseInt] at h
  single r := by
    simp only [reading, DsCtx.ofTerms]
    split <;> simp

theorem dsTotal (ds : List (Quad Term)) : DsTotal (reading ds) Example.xsd where
  known _ := rfl
  boolean _ _ _ _ h := absurd h (noBool _ _)
  text := by
    intro ref l s h
    obtain ⟨rfl, rfl⟩ := isText h
    exact ⟨_, rfl⟩
  number _ _ h := absurd h (noNumber _ _)
  discriminated _ _ h := absurd h (noSum _ _)
  noAlways ref h := reg_cases (P := fun l => l ≠ .always) (by simp) (by simp) (by simp) ref _ h rfl

/-- A text. -/
def typedText (s : String) : TypedValue Term := .literal (.textString s (.iri "text"))

/-- The team. -/
def value : TypedValue Term :=
  .list [.map [(.text "name", typedText "Alice")] (.iri "person"),
    .map [(.text "name", typedText "Robert"), (.text "nick", typedText "Bob")] (.iri "person")] (.iri "team")

theorem value_tree : value.untype = tree := by decide +kernel

theorem text_type (s : String) : HasType reg (.iri "text") (typedText s) := .textString _ (l := DeExample.text) rfl

theorem value_type : HasType reg (.iri "team") value := by
  refine .unordered _ (l := team) rfl ?_
  simp only [List.mem_cons, List.not_mem_nil, or_false, forall_eq_or_imp, forall_eq]
  refine ⟨.product _ (l := person) rfl (by decide +kernel) ?_ ?_, .product _ (l := person) rfl (by decide +kernel) ?_ ?_⟩
  all_goals
    simp only [person, List.mem_cons, List.not_mem_nil, or_false, Prod.mk.injEq]
  · rintro k f (⟨rfl, rfl⟩ | ⟨rfl, rfl⟩) hreq
    · exact ⟨_, rfl, rfl⟩
    · exact nomatch hreq
  · rintro k v f ⟨rfl, rfl⟩ (⟨h, rfl⟩ | ⟨h, rfl⟩) <;> exact text_type _
  · rintro k f (⟨rfl, rfl⟩ | ⟨rfl, rfl⟩) hreq
    · exact ⟨_, .inl ⟨rfl, rfl⟩⟩
    · exact nomatch hreq
  · rintro k v f (⟨rfl, rfl⟩ | ⟨rfl, rfl⟩) (⟨h, rfl⟩ | ⟨h, rfl⟩) <;> exact text_type _

theorem value_decided : Decided reg value := by
  refine .list ?_
  simp only [List.mem_cons, List.not_mem_nil, or_false, forall_eq_or_imp, forall_eq]
  refine ⟨.map ?_, .map ?_⟩ <;> simp only [List.mem_cons, List.not_mem_nil, or_false, forall_eq_or_imp, forall_eq]
  · exact .literal _
  · exact ⟨.literal _, .literal _⟩

theorem value_ids : AllIds (fun s => types.isIri s = true) value := by
  refine .list ?_
  simp only [List.mem_cons, List.not_mem_nil, or_false, forall_eq_or_imp, forall_eq]
  refine ⟨.map ?_, .map ?_⟩ <;> simp only [List.mem_cons, List.not_mem_nil, or_false, forall_eq_or_imp, forall_eq]
  · exact .literal _ (by simp)
  · exact ⟨.literal _ (by simp), .literal _ (by simp)⟩

theorem value_printable : value.untype.Printable Example.xsd := by
  intro q hq
  rw [value_tree] at hq
  have hlit : ∀ s, ¬ (Value.text s).HasNumber q := fun s h => nomatch h
  unfold tree at hq
  cases hq with
  | list hm hq =>
    simp only [List.mem_cons, List.not_mem_nil, or_false] at hm
    rcases hm with rfl | rfl
    all_goals
      cases hq with
      | map hm hq =>
        simp only [List.mem_cons, Prod.mk.injEq, List.not_mem_nil, or_false] at hm
        first
          | (obtain ⟨-, rfl⟩ := hm; exact absurd hq (hlit _); done)
          | (rcases hm with ⟨-, rfl⟩ | ⟨-, rfl⟩ <;> exact absurd hq (hlit _))

theorem value_saved : save types 4 value (.iri "team") DeExample.opts = .ok (quads, [.blank "input0"]) := by decide +kernel

theorem value_recoverable : Recoverable reg (.iri "team") value.untype := by
  rw [value_tree]
  have hleaf : ∀ v, Recoverable reg (.iri "text") v := fun v => .leaf _ fun l hl => by
    have := Option.some.inj hl
    subst this
    rfl
  have hperson : ∀ m, Recoverable reg (.iri "person") (.map m) := fun m => .product m (l := person) rfl fun k v f _ hf => by
    simp only [person, List.mem_cons, Prod.mk.injEq, List.not_mem_nil, or_false] at hf
    rcases hf with ⟨-, rfl⟩ | ⟨-, rfl⟩ <;> exact hleaf v
  refine .unordered _ (l := team) rfl ?_
  simp only [List.mem_cons, List.not_mem_nil, or_false, forall_eq_or_imp, forall_eq]
  exact ⟨hperson _, hperson _⟩

theorem distinctKeys : reg.DistinctKeys := by
  intro ref l h
  exact reg_cases (P := fun l => ∀ p, l = .product p → (p.fields.map Prod.fst).Nodup)
    (by simp) (by rintro p ⟨⟩; decide +kernel) (by simp) ref _ h l rfl

/-- The team is read back by the derived types. -/
example : ∃ w N, (∀ m, N ≤ m → deserialize (reading dataset) m none (.iri "team") [.blank "input0"] = .ok w) ∧
    SameTree reg (.iri "team") value.untype w.untype := by
  refine C63_read_back_sets types Example.xsd Example.xsd_laws SerExample.fromLiteral SerExample.parseInt seLaws seText closed
    wellTyped distinctKeys sorted
    (fun ref l h => absurd rfl (reg_cases (P := fun l => ∀ p, l ≠ .unit p) (by simp) (by simp) (by simp) ref _ h l))
    ?_ (fun ref l h => absurd h (noSum ref l)) ?_ DeExample.opts (fun _ => .refl _) 4 (.iri "team") value value_type value_decided
    value_ids value_printable value_recoverable (value_tree ▸ endsFresh) quads _ value_saved dataset (by decide +kernel)
    (by decide +kernel) (dsLaws _) (dsTotal _) ReproduceExample.le ReproduceExample.le_total (fun ref l h => absurd h (noSum ref l))
    unambiguous (value_tree ▸ exact_team)
  · refine reg_cases ?_ ?_ ?_ <;> simp [team, person, DeExample.text, Layout.formats, DeExample.val]
  · refine reg_cases ?_ ?_ ?_ <;>
      simp [team, person, DeExample.text, Layout.Binds, ValueFormat.BoundIn, Pattern.BoundIn, boundVars,
        patsVars, QuadPat.vars, Pattern.vars, DeExample.q, DeExample.val, DeExample.c]

end Verif.Props.SetExample
