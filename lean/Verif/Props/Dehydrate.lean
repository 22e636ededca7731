import Verif.AutomatonSpec
import Verif.DehydrateExample
import Verif.DehydrateConform
import Verif.DehydrateFresh
import Verif.DehydrateGraph
import Verif.DehydrateMono
import Verif.DehydrateNaming
import Verif.DehydrateOut
import Verif.ErasePatterns

/-!
# Properties C10 – C16, C19, C20, C23, C43, C46, C47 (dehydration)

The specifications are in `Verif/DehydrateSpec.lean` and `Verif/LayoutSpec.lean` (`Conforms`).
-/

set_option linter.unusedSectionVars false

namespace Verif.Props

open Verif.Dehydrate

/-! ## C10, C11: which trees are accepted -/

/-- **C10.** If dehydration succeeds, the tree conforms to the layout. -/
theorem C10_accepted_conforms (c : DeCtx) (hd : c.reg.DistinctKeys) (n : Nat) (v : Value) (g : Option IRes)
    (ref : Term) (ins : List IRes) (s s' : DeState) (h : dehydrateWith c n v g ref ins s = (.ok (), s')) :
    Conforms c.reg c.isIri ref v :=
  conf_dehydrateWith c hd n v g ref ins s s' h

/-- **C10** (top level). -/
theorem C10_dehydrate_conforms (c : DeCtx) (hd : c.reg.DistinctKeys) (n : Nat) (v : Value) (ref : Term)
    (o : DeOptions) (r : List (Quad Term) × List Term) (h : dehydrate c n v ref o = .ok r) :
    Conforms c.reg c.isIri ref v := by
  unfold dehydrate at h
  cases hl : c.reg ref with
  | none => rw [hl] at h; simp at h
  | some l =>
    rw [hl] at h
    simp only at h
    rcases hx : dehydrateWith c n v none ref
      ((List.range (l.inputCount.getD (o.inputCount.getD 1))).map .input) ⟨[], [], 0⟩ with ⟨a | e | _ | _, s'⟩ <;>
      rw [hx] at h <;> simp only [reduceCtorEq] at h
    exact C10_accepted_conforms c hd n v none ref _ _ s' hx

example : Conforms DeExample.reg DeExample.ctx.isIri (.iri "person") DeExample.alice :=
  C10_dehydrate_conforms DeExample.ctx DeExample.reg_distinctKeys 4 _ _ _ _ DeExample.dehydrate_alice

/-- **C11.** A tree that conforms to the layout, with one applicable variant at each sum, is accepted: with any large
enough bound on the recursion, from any state, for any graph, dehydration into a dataset succeeds. The layouts are
closed, refer to defined layouts with the right number of inputs, do not refer to each other in a cycle of sums, and
use the literal datatypes that are implemented. -/
theorem C11_conforming_accepted (c : DeCtx) (hd : c.reg.DistinctKeys) (hc : c.reg.Closed) (hw : c.reg.WellTyped)
    (ha : c.reg.AcyclicSums) (hs : c.Supported) (ref : Term) (v : Value) (hv : UniquelyConforms c.reg c.isIri ref v)
    (hp : v.Printable c.xsd) :
    ∃ N, ∀ n, N ≤ n → ∀ (g : Option IRes) (ins : List IRes) (s : DeState),
      (∀ l k, c.reg ref = some l → l.inputCount = some k → ins.length = k) →
      ∃ s', dehydrateWith c n v g ref ins s = (.ok (), s') := by
  obtain ⟨N, hN⟩ := dehydrateWith_terminates c ha v ref
  refine ⟨N, fun n hn g ins s hin => ?_⟩
  have h1 := hN n hn g ins s
  have h2 := dehydrateWith_ne_err c hd hc hw hv n g ins hin s
  have h3 := dehydrateWith_ne_panic c hc hs n v hp g ref ins s
  rcases h : dehydrateWith c n v g ref ins s with ⟨a | e | _ | _, s'⟩ <;> rw [h] at h1 h2 h3
  · exact ⟨s', rfl⟩
  · exact absurd trivial h2
  · exact absurd trivial h3
  · exact absurd rfl h1

/-- **C11** (top level, as far as the code goes). `dehydrate` succeeds on such a tree, except that it reports
`TermAmbiguity` when two different terms are assigned to the same resource. What is missing is a condition on the
layouts that excludes this: see `C11_term_ambiguity`. -/
theorem C11_dehydrate_accepts_partial (c : DeCtx) (hd : c.reg.DistinctKeys) (hc : c.reg.Closed)
    (hw : c.reg.WellTyped) (ha : c.reg.AcyclicSums) (hs : c.Supported) (ref : Term) (v : Value)
    (hv : UniquelyConforms c.reg c.isIri ref v) (hp : v.Printable c.xsd) :
    ∃ N, ∀ n, N ≤ n → ∀ o : DeOptions,
      (∃ r, dehydrate c n v ref o = .ok r) ∨
      dehydrate c n v ref o = .err .termAmbiguity ∧ ∃ count s,
        dehydrateWith c n v none ref ((List.range count).map .input) ⟨[], [], 0⟩ = (.ok (), s) ∧ Conflict s := by
  obtain ⟨N, hN⟩ := C11_conforming_accepted c hd hc hw ha hs ref v hv hp
  refine ⟨N, fun n hn o => ?_⟩
  have hl : ∃ l, c.reg ref = some l := by cases hv <;> exact ⟨_, ‹_›⟩
  obtain ⟨l, hl⟩ := hl
  obtain ⟨s, h⟩ := hN n hn none ((List.range (l.inputCount.getD (o.inputCount.getD 1))).map .input) ⟨[], [], 0⟩ (by
    intro l' k hl' hk
    rw [hl] at hl'
    obtain rfl := Option.some.inj hl'
    simp [hk])
  unfold dehydrate
  rw [hl]
  simp only [h]
  by_cases hamb : ambiguous s.terms = true
  · rw [if_pos hamb]
    exact .inr ⟨rfl, _, s, h, (ambiguous_iff s).1 hamb⟩
  · rw [if_neg hamb]
    exact .inl ⟨_, rfl⟩

example := C11_dehydrate_accepts_partial DeExample.ctx DeExample.reg_distinctKeys DeExample.reg_closed
  DeExample.reg_wellTyped DeExample.reg_acyclicSums DeExample.ctx_supported (.iri "either") DeExample.letters
  DeExample.letters_conforms DeExample.letters_printable

example := C11_conforming_accepted DeExample.ctx DeExample.reg_distinctKeys DeExample.reg_closed
  DeExample.reg_wellTyped DeExample.reg_acyclicSums DeExample.ctx_supported (.iri "person") DeExample.alice
  DeExample.alice_conforms DeExample.alice_printable

namespace Witness

open DeExample

/-- A record whose two fields describe the same resource. -/
def twice : ProductLayout Term :=
  { input := 1, intro := 0, dataset := [],
    fields := [
      (.text "a", { intro := 0, value := val "text" 0, dataset := [], required := true }),
      (.text "b", { intro := 0, value := val "text" 0, dataset := [], required := true })] }

/-- The layouts `twice` and `text`. -/
def twiceCtx : DeCtx :=
  { ctx with reg := fun r => if r = .iri "twice" then some (.product twice) else if r = .iri "text" then some (.textString text) else none }

end Witness

open Witness in
/-- **C11** fails in general at the top level: a conforming tree can be rejected because its layout gives two terms to
one resource. -/
theorem C11_term_ambiguity :
    dehydrate twiceCtx 3 (.map [(.text "a", .text "x"), (.text "b", .text "y")]) (.iri "twice") DeExample.opts =
      .err .termAmbiguity := by decide +kernel

/-! ## C12, C13: the output only grows, and introduced resources are new -/

/-- **C12.** Whatever its outcome, dehydration removes no quad and no term from its output, and the counter of created
resources does not decrease. -/
theorem C12_only_adds (c : DeCtx) (n : Nat) (v : Value) (g : Option IRes) (ref : Term) (ins : List IRes)
    (s : DeState) : Extends s (dehydrateWith c n v g ref ins s).2 :=
  pres_dehydrateWith (P := Extends)
    { refl := fun s => ⟨fun _ h => h, fun _ h => h, Nat.le_refl _⟩
      trans := fun a b c h1 h2 => ⟨fun q h => h2.quads q (h1.quads q h), fun e h => h2.terms e (h1.terms e h),
        Nat.le_trans h1.fresh h2.fresh⟩
      fresh := fun s => ⟨fun _ h => h, fun _ h => h, Nat.le_succ _⟩
      insert := fun s q => ⟨fun q h => mem_insertQuad.2 (.inl h), fun _ h => h, Nat.le_refl _⟩
      assign := fun s r t => ⟨fun _ h => h, fun e h => by
        simp only
        split
        · exact h
        · exact List.mem_append_left _ h, Nat.le_refl _⟩ } c n v g ref ins s

-- Even a failing run: here the record is rejected after its type triple was written.
example : Extends ⟨[], [], 0⟩ (dehydrateWith DeExample.ctx 4 (.map [(.text "x", .text "y")]) none (.iri "person")
    [.input 0] ⟨[], [], 0⟩).2 ∧ (dehydrateWith DeExample.ctx 4 (.map [(.text "x", .text "y")]) none (.iri "person")
    [.input 0] ⟨[], [], 0⟩) = (.err .incompatibleLayout, ⟨[⟨.input 0, .term (.iri "type"), .term (.iri "Person"), none⟩], [], 0⟩) :=
  ⟨C12_only_adds .., by decide +kernel⟩

/-- **C13** (introduction). Introducing `k` variables binds them to `k` pairwise different resources, which are neither
inputs nor terms, and which occur nowhere in a well-formed state. -/
theorem C13_introduced_fresh (env : Env IRes) (k : Nat) (s : DeState) (hs : Bounded s) :
    ∃ new s', intro env k s = (.ok (env.bind new), s') ∧ new.length = k ∧ new.Nodup ∧
      (∀ r ∈ new, (∀ i, r ≠ .input i) ∧ (∀ t, r ≠ .term t) ∧ (∀ e ∈ s.terms, e.1 ≠ r) ∧
        (∀ q ∈ s.out, q.Uses (· ≠ r)) ∧ ∃ i, r = .anon i ∧ s.fresh ≤ i ∧ i < s'.fresh) := by
  refine ⟨_, _, intro_eq env k s, by simp [freshList], ?_, ?_⟩
  · unfold freshList
    exact List.Nodup.map (fun a b h => by simpa using h) (List.nodup_range' (step := 1))
  · intro r hr
    obtain ⟨i, rfl, h1, h2⟩ := mem_freshList.1 hr
    refine ⟨by simp, by simp, ?_, ?_, i, rfl, h1, h2⟩
    · intro e he h
      have := hs.terms e he i h
      omega
    · intro q hq
      have := hs.quads q hq
      have key : ∀ r, (∀ j, r = IRes.anon j → j < s.fresh) → r ≠ IRes.anon i := by
        rintro r hr rfl
        have := hr i rfl
        omega
      exact ⟨key _ this.1, key _ this.2.1, key _ this.2.2.1, fun g hg => key _ (this.2.2.2 g hg)⟩

/-- **C13** (intermediate nodes of an ordered list). They are new as well. -/
theorem C13_node_fresh (s : DeState) (hs : Bounded s) :
    ∃ r s', newResource s = (.ok r, s') ∧ (∀ i, r ≠ .input i) ∧ (∀ t, r ≠ .term t) ∧ (∀ e ∈ s.terms, e.1 ≠ r) ∧
      (∀ q ∈ s.out, q.Uses (· ≠ r)) ∧ ∃ i, r = .anon i ∧ s.fresh ≤ i ∧ i < s'.fresh := by
  obtain ⟨new, s', h, hlen, -, hr⟩ := C13_introduced_fresh (.root []) 1 s hs
  rw [intro_eq] at h
  obtain ⟨r, rfl⟩ := List.length_eq_one_iff.1 hlen
  simp only [Prod.mk.injEq, Out.ok.injEq, Env.bind, Env.child.injEq, true_and] at h
  obtain ⟨h1, rfl⟩ := h
  have h2 : r = .anon s.fresh := by
    simp only [freshList, List.range'_one, List.map_cons, List.map_nil, List.cons.injEq, and_true] at h1
    exact h1.symm
  subst h2
  exact ⟨_, _, rfl, hr _ (by simp)⟩

/-- **C13** (whole runs). Everything a run adds to the output only mentions the inputs it was given, constants of the
layouts, and resources created during that very run. -/
theorem C13_run_uses_own_resources (c : DeCtx) (n : Nat) (v : Value) (g : Option IRes) (ref : Term) (ins : List IRes)
    (s : DeState) : Footprint (· ∈ ins) s.fresh s (dehydrateWith c n v g ref ins s).2 :=
  foot_dehydrateWith c n _ _ v g ref ins s (Nat.le_refl _) fun _ h => .inl h

/-- **C13** (invariant). Resources beyond the counter never occur in the state: the hypothesis of `C13_introduced_fresh`
holds throughout a run. -/
theorem C13_bounded (c : DeCtx) (n : Nat) (v : Value) (g : Option IRes) (ref : Term) (ins : List IRes) (s : DeState)
    (hs : Bounded s) (hi : ∀ i, .anon i ∈ ins → i < s.fresh) : Bounded (dehydrateWith c n v g ref ins s).2 := by
  have h := C13_run_uses_own_resources c n v g ref ins s
  have key : ∀ r, Known (· ∈ ins) s.fresh (dehydrateWith c n v g ref ins s).2.fresh r →
      ∀ i, r = .anon i → i < (dehydrateWith c n v g ref ins s).2.fresh := by
    rintro r (h1 | ⟨t, rfl⟩ | ⟨j, rfl, h1, h2⟩) i e
    · subst e
      exact Nat.lt_of_lt_of_le (hi i h1) h.fresh
    · simp at e
    · simp only [IRes.anon.injEq] at e
      omega
  constructor
  · intro q hq
    rcases h.quads q hq with h1 | h1
    · exact (hs.quads q h1).mono fun r hr i e => Nat.lt_of_lt_of_le (hr i e) h.fresh
    · exact h1.mono key
  · intro e he i hi'
    rcases h.terms e he with h1 | h1
    · exact Nat.lt_of_lt_of_le (hs.terms e h1 i hi') h.fresh
    · exact key _ h1 i hi'

example : Bounded (dehydrateWith DeExample.ctx 4 DeExample.letters none (.iri "list") [.input 0] ⟨[], [], 0⟩).2 :=
  C13_bounded _ _ _ _ _ _ _ ⟨by simp, by simp⟩ (by simp)

/-! ## C14: naming -/

/-- **C14.** When `dehydrate` succeeds, its result is the image of the internal quads and of the inputs under one
naming function; there is one subject per input of the layout. -/
theorem C14_one_term_per_resource (c : DeCtx) (n : Nat) (v : Value) (ref : Term) (o : DeOptions)
    (ho : ∀ l, (o.order l).Perm l) (quads : List (Quad Term)) (values : List Term)
    (h : dehydrate c n v ref o = .ok (quads, values)) :
    ∃ l count s f, c.reg ref = some l ∧ count = l.inputCount.getD (o.inputCount.getD 1) ∧
      dehydrateWith c n v none ref ((List.range count).map .input) ⟨[], [], 0⟩ = (.ok (), s) ∧
      ¬ Conflict s ∧ IsNaming o s (Occurs s.out count) f ∧
      (∀ q, q ∈ quads ↔ ∃ q' ∈ s.out, q = q'.map f) ∧ quads.Nodup ∧
      values = (List.range count).map fun i => f (.input i) := by
  unfold dehydrate at h
  cases hl : c.reg ref with
  | none => rw [hl] at h; simp at h
  | some l =>
    rw [hl] at h
    simp only at h
    rcases hx : dehydrateWith c n v none ref
      ((List.range (l.inputCount.getD (o.inputCount.getD 1))).map .input) ⟨[], [], 0⟩ with ⟨a | e | _ | _, s⟩ <;>
      rw [hx] at h <;> simp only [reduceCtorEq] at h
    by_cases hamb : ambiguous s.terms = true
    · rw [if_pos hamb] at h; simp at h
    · rw [if_neg hamb] at h
      have hconf : ¬ Conflict s := fun hcon => hamb ((ambiguous_iff s).2 hcon)
      rcases h1 : mapQuads o (o.order s.out) (initialMap s.terms, 0) with ⟨qs, st⟩
      rcases h2 : mapInputs o (List.range (l.inputCount.getD (o.inputCount.getD 1))) st with ⟨vals, st'⟩
      rw [h1] at h
      simp only [h2, Out.ok.injEq, Prod.mk.injEq] at h
      obtain ⟨rfl, rfl⟩ := h
      obtain ⟨f, hf, hq, hv⟩ := naming_spec o s hconf _ _ h1 h2
      have hocc : ∀ r, Occurs s.out (l.inputCount.getD (o.inputCount.getD 1)) r →
          Occurs (o.order s.out) (l.inputCount.getD (o.inputCount.getD 1)) r := by
        rintro r (⟨q, hq, hr⟩ | hr)
        · exact .inl ⟨q, (ho s.out).mem_iff.2 hq, hr⟩
        · exact .inr hr
      refine ⟨l, _, s, f, rfl, rfl, hx, hconf, ⟨hf.term, hf.assigned, fun i hi => hf.input i (hocc _ hi), ?_⟩, ?_, ?_, hv⟩
      · obtain ⟨pos, hp1, hp2⟩ := hf.generated
        exact ⟨pos, fun i hi => hp1 i (hocc _ hi), fun i j hi h hj => hp2 i j (hocc _ hi) h (hocc _ hj)⟩
      · intro q
        rw [toSet, List.mem_dedup, hq, List.mem_map]
        constructor
        · rintro ⟨q', hq', rfl⟩; exact ⟨q', (ho s.out).mem_iff.1 hq', rfl⟩
        · rintro ⟨q', hq', rfl⟩; exact ⟨q', (ho s.out).mem_iff.2 hq', rfl⟩
      · exact List.nodup_dedup _

/-- **C14** (distinct names). With a generator that never repeats itself, two different anonymous resources that were
assigned no term have different names. -/
theorem C14_generated_distinct (o : DeOptions) (hgen : ∀ i j, o.generator i = o.generator j → i = j) (s : DeState)
    (used : IRes → Prop) (f : IRes → Term) (hf : IsNaming o s used f) (i j : Nat) (hi : used (.anon i))
    (hj : used (.anon j)) (hti : ∀ t, (IRes.anon i, t) ∉ s.terms) (htj : ∀ t, (IRes.anon j, t) ∉ s.terms)
    (h : f (.anon i) = f (.anon j)) : i = j := by
  obtain ⟨pos, h1, h2⟩ := hf.generated
  rw [h1 i hi hti, h1 j hj htj] at h
  exact h2 i j hi hti hj htj (hgen _ _ h)

/-- **C14** (ambiguity). When dehydration succeeds internally, the result is `TermAmbiguity` exactly when two different
terms were assigned to the same resource. -/
theorem C14_ambiguity (c : DeCtx) (n : Nat) (v : Value) (ref : Term) (o : DeOptions) (l : Layout Term)
    (hl : c.reg ref = some l) (s : DeState)
    (h : dehydrateWith c n v none ref ((List.range (l.inputCount.getD (o.inputCount.getD 1))).map .input)
      ⟨[], [], 0⟩ = (.ok (), s)) :
    dehydrate c n v ref o = .err .termAmbiguity ↔ Conflict s := by
  rw [← ambiguous_iff]
  unfold dehydrate
  rw [hl]
  simp only [h]
  by_cases hamb : ambiguous s.terms = true
  · rw [if_pos hamb]; simp [hamb]
  · rw [if_neg hamb]; simp [hamb]

example := C14_one_term_per_resource DeExample.ctx 4 _ _ DeExample.opts (fun _ => .refl _) _ _
  DeExample.dehydrate_letters

example : ∀ i j, DeExample.opts.generator i = DeExample.opts.generator j → i = j := by
  intro i j h
  simp only [DeExample.opts, Term.blank.injEq, String.ofList_inj] at h
  simpa using congrArg List.length h

example : ∃ s, Conflict s ∧ dehydrateWith Witness.twiceCtx 3 (.map [(.text "a", .text "x"), (.text "b", .text "y")])
    none (.iri "twice") ((List.range 1).map .input) ⟨[], [], 0⟩ = (.ok (), s) := by
  refine ⟨(dehydrateWith Witness.twiceCtx 3 (.map [(.text "a", .text "x"), (.text "b", .text "y")])
    none (.iri "twice") ((List.range 1).map .input) ⟨[], [], 0⟩).2, ?_, by decide +kernel⟩
  exact (ambiguous_iff _).1 (by decide +kernel)

/-! ## C15: sums -/

/-- **C15** (variants that fail at the head). If the tree does not even have the right kind for the layouts of all the
variants but `x`, then the output of a successful run is what was there before, the instances of the sum's own pattern,
what dehydrating through `x` adds, and the instances of the pattern of `x`; no term is assigned besides those assigned
by `x`. What is missing: a variant that fails after having written something, see `C15_failed_variant_leaks`. -/
theorem C15_only_selected_variant_partial (c : DeCtx) (hc : c.reg.Closed) (n : Nat) (g : Option IRes) (ref : Term)
    (l : SumLayout Term) (hl : c.reg ref = some (.sum l)) (ins : List IRes) (hi : ins.length = l.input) (v : Value)
    (before after : List (Variant Term)) (x : Variant Term) (hv : l.variants = before ++ x :: after)
    (hskip : ∀ y ∈ before ++ after, ∃ l', c.reg y.value.layout = some l' ∧ l'.HeadMismatch v) (s s' : DeState)
    (h : dehydrateWith c (n + 2) v g ref ins s = (.ok (), s')) :
    ∃ new new' s0 s1 g' ins', new.length = l.intro ∧ new'.length = x.intro ∧
      (∀ q, q ∈ s0.out ↔ q ∈ s.out ∨ ∃ p ∈ l.dataset, p.Instance (fun i => (ins ++ new)[i]?) q) ∧
      s0.terms = s.terms ∧
      List.Forall₂ (Pattern.Instance fun i => (ins ++ new ++ new')[i]?) x.value.input ins' ∧
      dehydrateWith c (n + 1) v g' x.value.layout ins' s0 = (.ok (), s1) ∧
      (∀ q, q ∈ s'.out ↔ q ∈ s1.out ∨ ∃ p ∈ x.dataset, p.Instance (fun i => (ins ++ new ++ new')[i]?) q) ∧
      s'.terms = s1.terms :=
  sum_output c hc n g hl hi hv hskip h

example : ∃ s', dehydrateWith DeExample.ctx 4 DeExample.letters none (.iri "either") [.input 0] ⟨[], [], 0⟩ = (.ok (), s') ∧
    ∀ y ∈ [DeExample.either.variants[0]] ++ [], ∃ l', DeExample.ctx.reg y.value.layout = some l' ∧
      l'.HeadMismatch DeExample.letters := by
  refine ⟨(dehydrateWith DeExample.ctx 4 DeExample.letters none (.iri "either") [.input 0] ⟨[], [], 0⟩).2,
    by decide +kernel, ?_⟩
  intro y hy
  simp only [List.append_nil, List.mem_singleton] at hy
  subst hy
  exact ⟨_, rfl, by simp [Layout.HeadMismatch, DeExample.letters]⟩

namespace Witness

open DeExample

/-- A record with one field, described by a type and a property. -/
def typed (type key : String) : ProductLayout Term :=
  { input := 1, intro := 0, dataset := [q (.var 0) (DeExample.c "type") (DeExample.c type)],
    fields := [(.text key, { intro := 1, value := val "text" 1, dataset := [q (.var 0) (DeExample.c key) (.var 1)], required := true })] }

/-- A sum of two records. -/
def leakCtx : DeCtx :=
  { ctx with reg := fun r =>
      if r = .iri "sum" then some (.sum { input := 1, intro := 0, dataset := [], variants := [
        { name := "cat", intro := 0, value := val "cat" 0, dataset := [] },
        { name := "dog", intro := 0, value := val "dog" 0, dataset := [] }] })
      else if r = .iri "cat" then some (.product (typed "Cat" "meows"))
      else if r = .iri "dog" then some (.product (typed "Dog" "barks"))
      else if r = .iri "text" then some (.textString text) else none }

end Witness

open Witness in
/-- **C15** fails in general: a dog is also declared to be a cat, because the first variant wrote its type before it
failed. -/
theorem C15_failed_variant_leaks :
    dehydrate leakCtx 4 (.map [(.text "barks", .text "loud")]) (.iri "sum") DeExample.opts =
      .ok ([⟨.blank "input0", .iri "type", .iri "Cat", none⟩, ⟨.blank "input0", .iri "type", .iri "Dog", none⟩,
        ⟨.blank "input0", .iri "barks", .literal ⟨"loud", .any "xsd:string"⟩, none⟩], [.blank "input0"]) := by
  decide +kernel

/-! ## C16, C46: which quads are written -/

/-- **C46.** Every quad that dehydration adds is an instance of a quad pattern of a layout of the registry. -/
theorem C46_quads_are_instances (c : DeCtx) (n : Nat) (v : Value) (g : Option IRes) (ref : Term) (ins : List IRes)
    (s : DeState) (q : Quad IRes) (hq : q ∈ (dehydrateWith c n v g ref ins s).2.out) (hq' : q ∉ s.out) :
    ∃ r l p ρ, c.reg r = some l ∧ p ∈ l.patterns ∧ QuadPat.Instance ρ p q := by
  rcases from_dehydrateWith c n v g ref ins s q hq with h | ⟨p, ρ, ⟨r, l, hl, hp⟩, hi⟩
  · exact absurd h hq'
  · exact ⟨r, l, p, ρ, hl, hp, hi⟩

example : ∃ r l p ρ, DeExample.reg r = some l ∧ p ∈ l.patterns ∧
    QuadPat.Instance ρ p ⟨.input 0, .term (.iri "rest"), .anon 0, none⟩ :=
  C46_quads_are_instances DeExample.ctx 4 DeExample.letters none (.iri "list") [.input 0] ⟨[], [], 0⟩ _
    (by decide +kernel) (by simp)

/-- **C16** (patterns without graph, default graph). If the layouts name no graph, everything is written to the default
graph. What is missing: a current graph other than the default one is ignored, see `C16_graph_ignored`. -/
theorem C16_default_graph_partial (c : DeCtx) (hg : ∀ r l, c.reg r = some l → ∀ p ∈ l.patterns, p.g = none) (n : Nat)
    (v : Value) (g : Option IRes) (ref : Term) (ins : List IRes) (s : DeState) (q : Quad IRes)
    (hq : q ∈ (dehydrateWith c n v g ref ins s).2.out) (hq' : q ∉ s.out) : q.g = none := by
  obtain ⟨r, l, p, ρ, hl, hp, -, -, -, h⟩ := C46_quads_are_instances c n v g ref ins s q hq hq'
  rw [hg r l hl p hp] at h
  cases hqg : q.g with
  | none => rfl
  | some _ => rw [hqg] at h; exact h.elim

example : ∀ r l, DeExample.reg r = some l → ∀ p ∈ l.patterns, p.g = none :=
  DeExample.reg_cases (by decide +kernel) (by decide +kernel) (by decide +kernel) (by decide +kernel)
    (by decide +kernel) (by decide +kernel) (by decide +kernel)

/-- **C16** fails: the graph given to dehydration has no effect whatsoever. -/
theorem C16_graph_ignored (c : DeCtx) (n : Nat) (v : Value) (g g' : Option IRes) (ref : Term) (ins : List IRes) :
    dehydrateWith c n v g ref ins = dehydrateWith c n v g' ref ins :=
  dehydrateWith_graph c n v g g' ref ins

namespace Witness

open DeExample

/-- A record whose field is described in the graph `G`. -/
def graphLayout : ProductLayout Term :=
  { input := 1, intro := 0, dataset := [],
    fields := [(.text "cat", {
      intro := 1, value := ⟨.iri "cat", [.var 1], some (some (DeExample.c "G"))⟩,
      dataset := [q (.var 0) (DeExample.c "pet") (.var 1)], required := true })] }

/-- The layouts. -/
def graphReg : Registry Term := fun r =>
  if r = .iri "owner" then some (.product graphLayout)
  else if r = .iri "cat" then some (.product (typed "Cat" "meows"))
  else if r = .iri "text" then some (.textString text) else none

/-- The context for dehydration. -/
def graphCtx : DeCtx := { ctx with reg := graphReg }

/-- The context for hydration, over the given dataset. -/
def graphHyCtx (ds : List (Quad Term)) : HyCtx Term :=
  HyCtx.ofTerms graphReg Example.xsd (fun _ _ => true) ds

/-- The cat in the graph `g`. -/
def catQuads (g : Option Term) : List (Quad Term) :=
  [⟨.blank "input0", .iri "pet", .blank "b", none⟩, ⟨.blank "b", .iri "type", .iri "Cat", g⟩,
   ⟨.blank "b", .iri "meows", .literal ⟨"loud", .any "xsd:string"⟩, g⟩]

end Witness

open Witness in
/-- **C16** fails (concretely): the cat is described in the default graph, while hydration looks for it in the graph
`G`, and finds it there only. -/
theorem C16_wrong_graph :
    dehydrate graphCtx 4 (.map [(.text "cat", .map [(.text "meows", .text "loud")])]) (.iri "owner") DeExample.opts =
      .ok (catQuads none, [.blank "input0"]) ∧
    (∃ e, Hydrate.hydrate (graphHyCtx (catQuads none)) 5 none (.iri "owner") [.blank "input0"] = .err e) ∧
    (Hydrate.hydrate (graphHyCtx (catQuads (some (.iri "G")))) 5 none (.iri "owner") [.blank "input0"]).map
      TypedValue.untype = .ok (.map [(.text "cat", .map [(.text "meows", .text "loud")])]) :=
  ⟨by decide +kernel, ⟨.missingData (.discriminant (.iri "cat")), by decide +kernel⟩, by decide +kernel⟩

/-! ## C19, C23: variables -/

/-- **C19.** In an environment made of inputs and of successive introductions, variable `i` denotes the `i`-th resource
of the sequence inputs, first introduction, second introduction, and so on; an index beyond the sequence is an error. -/
theorem C19_variable_denotes (inputs : List IRes) (intros : List (List IRes)) (i : Nat) :
    instPattern (intros.foldl Env.bind (.root inputs)) (.var i) =
      match (inputs ++ intros.flatten)[i]? with
      | some r => .ok r
      | none => .err (.undeclaredVariable i) := by
  have key : ∀ env : Env IRes, (intros.foldl Env.bind env).flat = env.flat ++ intros.flatten := by
    induction intros with
    | nil => intro env; simp
    | cons a as ih => intro env; simp only [List.foldl_cons, ih]; simp [Env.bind, Env.flat]
  have := key (.root inputs)
  simp only [instPattern, Env.get_eq, this]
  cases h : (inputs ++ intros.flatten)[i]? <;> simp [Env.flat, h]

example : instPattern ([[IRes.anon 0], [], [.anon 1, .anon 2]].foldl Env.bind (.root [.input 0])) (.var 2) =
    .ok (.anon 1) := by rw [C19_variable_denotes]; rfl

/-- **C23.** Dehydrating with closed layouts never reports an undeclared variable. -/
theorem C23_no_undeclared_variable (c : DeCtx) (hc : c.reg.Closed) (n : Nat) (v : Value) (g : Option IRes) (ref : Term)
    (ins : List IRes) (s s' : DeState) (x : Nat) :
    dehydrateWith c n v g ref ins s ≠ (.err (.undeclaredVariable x), s') := by
  intro h
  have := dehydrateWith_ne_undeclared c hc n v g ref ins s
  rw [h] at this
  exact this ⟨x, rfl⟩

/-- **C23** (top level). -/
theorem C23_dehydrate_no_undeclared_variable (c : DeCtx) (hc : c.reg.Closed) (n : Nat) (v : Value) (ref : Term)
    (o : DeOptions) (x : Nat) : dehydrate c n v ref o ≠ .err (.undeclaredVariable x) := by
  unfold dehydrate
  cases hl : c.reg ref with
  | none => simp
  | some l =>
    simp only
    rcases hx : dehydrateWith c n v none ref
      ((List.range (l.inputCount.getD (o.inputCount.getD 1))).map .input) ⟨[], [], 0⟩ with ⟨a | e | _ | _, s⟩ <;>
      simp only [ne_eq, reduceCtorEq, not_false_eq_true]
    · split <;> simp
    · simp only [Out.err.injEq]
      rintro rfl
      exact C23_no_undeclared_variable c hc n v none ref _ _ s x hx

example := C23_dehydrate_no_undeclared_variable DeExample.ctx DeExample.reg_closed

-- Closedness is needed.
example : dehydrate { DeExample.ctx with reg := fun _ => some (.unit ⟨1, 0, [⟨.var 0, .var 0, .var 1, none⟩], .unit⟩) } 2
    .unit (.iri "x") DeExample.opts = .err (.undeclaredVariable 1) := by decide +kernel

/-! ## C43, C47: termination, determinism, absence of panics -/

/-- **C43** (dehydration). Running longer never changes a result. -/
theorem C43_dehydrate_deterministic (c : DeCtx) (n m : Nat) (v : Value) (ref : Term) (o : DeOptions)
    (h : dehydrate c n v ref o ≠ .fuel) (hnm : n ≤ m) : dehydrate c m v ref o = dehydrate c n v ref o := by
  rcases dehydrate_mono c hnm v ref o with h1 | h1
  · exact absurd h1 h
  · exact h1.symm

/-- **C43** (termination). When layout references are not cyclic through sums, dehydration of any tree terminates. -/
theorem C43_dehydrate_terminates (c : DeCtx) (ha : c.reg.AcyclicSums) (v : Value) (ref : Term) :
    ∃ N, ∀ n, N ≤ n → ∀ o, dehydrate c n v ref o ≠ .fuel := by
  obtain ⟨N, hN⟩ := dehydrateWith_terminates c ha v ref
  refine ⟨N, fun n hn o => ?_⟩
  unfold dehydrate
  cases hl : c.reg ref with
  | none => simp
  | some l =>
    simp only
    have := hN n hn none ((List.range (l.inputCount.getD (o.inputCount.getD 1))).map .input) ⟨[], [], 0⟩
    rcases hx : dehydrateWith c n v none ref
      ((List.range (l.inputCount.getD (o.inputCount.getD 1))).map .input) ⟨[], [], 0⟩ with ⟨a | e | _ | _, s⟩ <;>
      simp only [ne_eq, reduceCtorEq, not_false_eq_true]
    · split <;> simp
    · rw [hx] at this; exact absurd rfl this

example := C43_dehydrate_terminates DeExample.ctx DeExample.reg_acyclicSums

namespace Witness

/-- A sum layout whose only variant is itself. -/
def loopCtx : DeCtx :=
  { DeExample.ctx with reg := fun _ => some (.sum { input := 1, intro := 0, dataset := [], variants :=
      [{ name := "self", intro := 0, value := ⟨.iri "loop", [.var 0], none⟩, dataset := [] }] }) }

end Witness

open Witness in
/-- **C43**: the hypothesis is needed. With a sum layout that refers to itself, dehydration never returns. -/
theorem C43_cyclic_sum_diverges (n : Nat) (v : Value) (r : IRes) (s : DeState) :
    (dehydrateWith loopCtx n v none (.iri "loop") [r] s).1 = .fuel := by
  induction n generalizing s with
  | zero => rfl
  | succ n ih =>
    rw [dehydrateWith_succ (l := .sum { input := 1, intro := 0, dataset := [], variants :=
      [{ name := "self", intro := 0, value := ⟨.iri "loop", [.var 0], none⟩, dataset := [] }] }) rfl (by simp [Layout.inputCount])]
    simp only [layout, intro, newResources, instDataset, variants, instLocal, Out.mapM', DeM.bind, DeM.read,
      DeM.pure, subValue, instPatterns, instPattern, Env.get, Out.bind_ok]
    simp only [List.getElem?_cons_zero, Out.bind_ok]
    have := ih s
    rcases h : dehydrateWith loopCtx n v none (.iri "loop") [r] s with ⟨a | e | _ | _, s'⟩ <;> rw [h] at this <;>
      simp at this

/-- **C47** (as far as the code goes). Dehydration does not panic when the layouts are closed, use the literal datatypes
that are implemented (`DeCtx.Supported`), and the numbers of the tree have a decimal representation. Each condition
excludes an actual panic: see `C47_panics`. -/
theorem C47_no_panic_partial (c : DeCtx) (hc : c.reg.Closed) (hs : c.Supported) (n : Nat) (v : Value)
    (hv : v.Printable c.xsd) (ref : Term) (o : DeOptions) : dehydrate c n v ref o ≠ .panic := by
  unfold dehydrate
  cases hl : c.reg ref with
  | none => simp
  | some l =>
    simp only
    have := dehydrateWith_ne_panic c hc hs n v hv none ref
      ((List.range (l.inputCount.getD (o.inputCount.getD 1))).map .input) ⟨[], [], 0⟩
    rcases hx : dehydrateWith c n v none ref
      ((List.range (l.inputCount.getD (o.inputCount.getD 1))).map .input) ⟨[], [], 0⟩ with ⟨a | e | _ | _, s⟩ <;>
      simp only [ne_eq, reduceCtorEq, not_false_eq_true]
    · split <;> simp
    · rw [hx] at this; exact absurd trivial this

example : dehydrate DeExample.ctx 7 DeExample.alice (.iri "either") DeExample.opts ≠ .panic :=
  C47_no_panic_partial _ DeExample.reg_closed DeExample.ctx_supported _ _ DeExample.alice_printable _ _

namespace Witness

/-- One layout. -/
def oneDe (l : Layout Term) : DeCtx := { DeExample.ctx with reg := fun _ => some l }

end Witness

open Witness in
/-- **C47** fails in general: byte strings, a number without decimal representation, booleans and numbers of another
datatype, a datatype that is not an IRI. -/
theorem C47_panics :
    dehydrate (oneDe (.byteString ⟨1, 0, [], .var 0, .iri "xsd:string"⟩)) 1 (.literal (.byteString [])) (.iri "x")
      DeExample.opts = .panic ∧
    dehydrate (oneDe (.number ⟨1, 0, [], .var 0, .iri "xsd:decimal"⟩)) 1 (.literal (.number (1 / 3))) (.iri "x")
      DeExample.opts = .panic ∧
    dehydrate (oneDe (.number ⟨1, 0, [], .var 0, .iri "xsd:double"⟩)) 1 (.literal (.number 1)) (.iri "x")
      DeExample.opts = .panic ∧
    dehydrate (oneDe (.boolean ⟨1, 0, [], .var 0, .iri "xsd:string"⟩)) 1 (.literal (.boolean true)) (.iri "x")
      DeExample.opts = .panic ∧
    dehydrate (oneDe (.textString ⟨⟨1, 0, [], .var 0, .blank "b"⟩, none⟩)) 1 (.text "a") (.iri "x")
      DeExample.opts = .panic := by
  refine ⟨?_, ?_, ?_, ?_, ?_⟩ <;> decide +kernel

/-! ## C20: string patterns -/

/-- **C20** fails: string patterns have no effect, in neither direction. Hydration and dehydration give the same
results with the registry from which all the patterns have been removed. -/
theorem C20_patterns_ignored {R : Type} [DecidableEq R] (c : HyCtx R) (c' : DeCtx) (n : Nat) :
    Hydrate.hydrate { c with reg := c.reg.erasePatterns } n = Hydrate.hydrate c n ∧
    dehydrateWith { c' with reg := c'.reg.erasePatterns } n = dehydrateWith c' n :=
  ⟨Hydrate.hydrate_erase c n, dehydrateWith_erase c' n⟩

namespace Witness

/-- An automaton that accepts no string at all. -/
def emptyAut : DetAut Nat CharRange := { initial := 0, finals := [], transitions := [] }

theorem emptyAut_accepts (w : List Nat) : ¬ emptyAut.Accepts w := by
  rintro ⟨q, hq, -⟩
  simp [emptyAut] at hq

/-- A text layout whose pattern matches nothing. -/
def patternLayout : Layout Term :=
  .textString { input := 1, intro := 0, dataset := [], resource := .var 0, datatype := .iri "xsd:string",
                pattern := some emptyAut }

/-- A context with this layout only. -/
def patternHyCtx : HyCtx Term := { graphHyCtx [] with reg := fun _ => some patternLayout }

end Witness

open Witness in
/-- **C20** fails (concretely): a string is accepted in both directions although the pattern of its layout accepts no
string at all. -/
theorem C20_unmatched_string_accepted :
    (∃ l, patternLayout = .textString l ∧ ∃ a, l.pattern = some a ∧ ∀ w, ¬ a.Accepts w) ∧
    dehydrate (oneDe patternLayout) 1 (.text "a") (.iri "x") DeExample.opts =
      .ok ([], [.literal ⟨"a", .any "xsd:string"⟩]) ∧
    Hydrate.hydrate patternHyCtx 1 none (.iri "x") [.literal ⟨"a", .any "xsd:string"⟩] =
      .ok (.literal (.textString "a" (.iri "x"))) :=
  ⟨⟨_, rfl, _, rfl, emptyAut_accepts⟩, by decide +kernel, by decide +kernel⟩

end Verif.Props
