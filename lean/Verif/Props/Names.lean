import Verif.DehydrateNames
import Verif.Props.Dehydrate
import Verif.Props.Hydrate
import Verif.Props.Rename
import Verif.Props.Syntax
import Verif.SyntaxConstants
import Std.Data.String.ToNat

/-!
# Property C69 (names of blank nodes)

The specification is in `Verif/RenameSpec.lean` (`FreshNames`, `BlankRenaming`).
-/

set_option linter.unusedSectionVars false
set_option linter.unusedSimpArgs false

namespace Verif.Props

open Verif.Dehydrate

/-- The names in one naming, seen from another one. -/
noncomputable def transfer (s : DeState) (used : IRes → Prop) (f f' : IRes → Term) (t : Term) : Term :=
  open Classical in
  if h : ∃ i, used (.anon i) ∧ (∀ t, (IRes.anon i, t) ∉ s.terms) ∧ f (.anon i) = t then f' (.anon h.choose) else t

/-- A resource that the result can mention: constants of the layouts are mentioned even when no quad has them. -/
def Mentioned (reg : Registry Term) (used : IRes → Prop) (r : IRes) : Prop := used r ∨ ∃ t, r = .term t ∧ reg.HasConstant t

theorem transfer_eq {reg : Registry Term} {o o' : DeOptions} (ho : FreshNames reg o) (hin : o'.inputTerm = o.inputTerm) {s : DeState}
    {used : IRes → Prop} {f f' : IRes → Term} (hf : IsNaming o s used f) (hf' : IsNaming o' s used f')
    (hterm : ∀ t, used (.term t) → reg.HasConstant t)
    (hassigned : ∀ r t, (r, t) ∈ s.terms → t.NotBlank) (r : IRes) (hr : Mentioned reg used r) :
    transfer s used f f' (f r) = f' r := by
  obtain ⟨pos, hp1, hp2⟩ := hf.generated
  have notGen : ∀ t, (∀ k, o.generator k ≠ t) → transfer s used f f' t = t := by
    intro t ht
    unfold transfer
    rw [dif_neg]
    rintro ⟨i, hu, ha, e⟩
    rw [hp1 i hu ha] at e
    exact ht _ e
  have nonblank : ∀ t, t.NotBlank → ∀ k, o.generator k ≠ t := by
    intro t ht k e
    obtain ⟨b, hb⟩ := ho.blank k
    rw [hb] at e
    subst e
    exact ht
  by_cases ha : ∃ t, (r, t) ∈ s.terms
  · obtain ⟨t, ht⟩ := ha
    rw [hf.assigned r t ht, hf'.assigned r t ht]
    exact notGen t (nonblank t (hassigned r t ht))
  · have ha : ∀ t, (r, t) ∉ s.terms := fun t h => ha ⟨t, h⟩
    have hterm' : ∀ t, Mentioned reg used (.term t) → reg.HasConstant t := by
      rintro t (h | ⟨t', e, h⟩)
      · exact hterm t h
      · cases e; exact h
    cases r with
    | term t =>
      rw [hf.term, hf'.term]
      exact notGen t fun k => ho.layouts k t (hterm' t hr)
    | input i =>
      have hu : used (.input i) := by
        rcases hr with h | ⟨t, e, -⟩
        · exact h
        · cases e
      rw [hf.input i hu ha, hf'.input i hu ha, hin]
      exact notGen _ fun k => ho.inputs k i
    | anon i =>
      have hu : used (.anon i) := by
        rcases hr with h | ⟨t, e, -⟩
        · exact h
        · cases e
      have hex : ∃ j, used (.anon j) ∧ (∀ t, (IRes.anon j, t) ∉ s.terms) ∧ f (.anon j) = f (.anon i) := ⟨i, hu, ha, rfl⟩
      unfold transfer
      rw [dif_pos hex]
      obtain ⟨h1, h2, h3⟩ := hex.choose_spec
      have h4 := (hp1 _ h1 h2).symm.trans (h3.trans (hp1 i hu ha))
      have := hp2 _ _ h1 h2 hu ha (ho.distinct _ _ h4)
      rw [this]

/-- Unless it succeeds, the outcome does not depend on the names. -/
theorem C69_same_failure (c : DeCtx) (n : Nat) (v : Value) (ref : Term) (o o' : DeOptions) (hcount : o'.inputCount = o.inputCount) :
    (dehydrate c n v ref o').map (fun _ => ()) = (dehydrate c n v ref o).map (fun _ => ()) := by
  unfold dehydrate
  cases c.reg ref with
  | none => rfl
  | some l =>
    simp only [hcount]
    rcases dehydrateWith c n v none ref ((List.range (l.inputCount.getD (o.inputCount.getD 1))).map .input) ⟨[], [], 0⟩ with
      ⟨_ | _ | _ | _, s⟩
    · simp only
      split <;> rfl
    · rfl
    · rfl
    · rfl

/-- **C69.** The dataset and the subjects obtained by dehydration do not depend on the generator of identifiers, nor on the order in
which it is used, but for the names of blank nodes. -/
theorem C69_unique_up_to_blank (c : DeCtx) (n : Nat) (v : Value) (ref : Term) (o o' : DeOptions)
    (hcount : o'.inputCount = o.inputCount) (hin : o'.inputTerm = o.inputTerm)
    (hord : ∀ l, (o.order l).Perm l) (hord' : ∀ l, (o'.order l).Perm l)
    (ho : FreshNames c.reg o) (ho' : FreshNames c.reg o') (quads : List (Quad Term)) (values : List Term)
    (h : dehydrate c n v ref o = .ok (quads, values)) :
    ∃ quads' values' f, dehydrate c n v ref o' = .ok (quads', values') ∧ BlankRenaming c.reg o quads values f ∧
      (∀ q, q ∈ quads' ↔ ∃ q₀ ∈ quads, q = q₀.map f) ∧ values' = values.map f := by
  have hsame := C69_same_failure c n v ref o o' hcount
  rw [h] at hsame
  match h' : dehydrate c n v ref o', hsame with
  | .ok (quads', values'), _ =>
    obtain ⟨l, count, s, f, hl, hc, hs, hconf, hf, hq, hnd, hv⟩ := C14_one_term_per_resource c n v ref o hord quads values h
    obtain ⟨l', count', s', f', hl', hc', hs', hconf', hf', hq', hnd', hv'⟩ :=
      C14_one_term_per_resource c n v ref o' hord' quads' values' h'
    obtain rfl : l = l' := by rw [hl] at hl'; exact Option.some.inj hl'
    obtain rfl : count = count' := by rw [hc, hc', hcount]
    obtain rfl : s = s' := by rw [hs] at hs'; exact (Prod.mk.inj hs').2
    let K : IRes → Prop := fun r => ∀ t, r = .term t → c.reg.HasConstant t
    have hgood : s.Good K := by
      have := staysIn_dehydrateWith (K := K) (fun i t e => by cases e) c (fun t h t' e => by cases e; exact h) n v none ref
        ((List.range count).map .input) (by
          intro r hr t e
          obtain ⟨i, -, rfl⟩ := List.mem_map.1 hr
          cases e) ⟨[], [], 0⟩ ⟨by simp, by simp⟩
      rw [hs] at this
      exact this
    have hterm : ∀ t, Occurs s.out count (.term t) → c.reg.HasConstant t := by
      rintro t (⟨q, hq, h⟩ | ⟨i, -, h⟩)
      · obtain ⟨h1, h2, h3, h4⟩ := hgood.quads q hq
        rcases h with h | h | h | h
        · exact h1 t h.symm
        · exact h2 t h.symm
        · exact h3 t h.symm
        · exact h4 _ h t rfl
      · cases h
    have hassigned : ∀ r t, (r, t) ∈ s.terms → t.NotBlank := fun r t h => (hgood.terms r t h).2
    have T := fun r hr => transfer_eq ho hin hf hf' hterm hassigned r hr
    have T' := fun r hr => transfer_eq ho' hin.symm hf' hf hterm hassigned r hr
    let g := transfer s (Occurs s.out count) f f'
    have notGen : ∀ t, (∀ k, o.generator k ≠ t) → g t = t := by
      intro t ht
      obtain ⟨pos, hp1, -⟩ := hf.generated
      show transfer _ _ _ _ t = t
      unfold transfer
      rw [dif_neg]
      rintro ⟨i, hu, ha, e⟩
      rw [hp1 i hu ha] at e
      exact ht _ e
    have mention : ∀ t, (∃ q ∈ quads, q.Has t) ∨ t ∈ values ∨ c.reg.HasConstant t →
        ∃ r, Mentioned c.reg (Occurs s.out count) r ∧ f r = t := by
      rintro t (⟨q, hqm, h⟩ | h | h)
      · obtain ⟨q', hq', rfl⟩ := (hq q).1 hqm
        rcases h with h | h | h | h
        · exact ⟨q'.s, .inl (.inl ⟨q', hq', .inl rfl⟩), h.symm⟩
        · exact ⟨q'.p, .inl (.inl ⟨q', hq', .inr (.inl rfl)⟩), h.symm⟩
        · exact ⟨q'.o, .inl (.inl ⟨q', hq', .inr (.inr (.inl rfl))⟩), h.symm⟩
        · simp only [Quad.map, Option.map_eq_some_iff] at h
          obtain ⟨r, hr, e⟩ := h
          exact ⟨r, .inl (.inl ⟨q', hq', .inr (.inr (.inr hr))⟩), e⟩
      · rw [hv] at h
        obtain ⟨i, hi, rfl⟩ := List.mem_map.1 h
        exact ⟨.input i, .inl (.inr ⟨i, List.mem_range.1 hi, rfl⟩), rfl⟩
      · exact ⟨.term t, .inr ⟨t, rfl, h⟩, hf.term t⟩
    refine ⟨quads', values', g, rfl, ⟨?_, ?_, ?_, ?_, ?_, ?_⟩, ?_, ?_⟩
    · intro i
      refine notGen _ fun k e => ?_
      obtain ⟨b, hb⟩ := ho.blank k
      rw [hb] at e
      cases e
    · intro l
      refine notGen _ fun k e => ?_
      obtain ⟨b, hb⟩ := ho.blank k
      rw [hb] at e
      cases e
    · intro b
      show ∃ b', transfer _ _ _ _ _ = _
      unfold transfer
      split
      · rename_i hex
        obtain ⟨h1, h2, -⟩ := hex.choose_spec
        obtain ⟨pos, hp1, -⟩ := hf'.generated
        rw [hp1 _ h1 h2]
        exact ho'.blank _
      · exact ⟨b, rfl⟩
    · exact fun t ht => notGen t fun k => ho.layouts k t ht
    · exact fun i => notGen _ fun k => ho.inputs k i
    · intro t t' ht ht' e
      obtain ⟨r, hr, rfl⟩ := mention t ht
      obtain ⟨r', hr', rfl⟩ := mention t' ht'
      rw [show g (f r) = f' r from T r hr, show g (f r') = f' r' from T r' hr'] at e
      rw [← T' r hr, ← T' r' hr', e]
    · intro q
      rw [hq' q]
      have key : ∀ q₀ ∈ s.out, (q₀.map f).map g = q₀.map f' := by
        intro q₀ h₀
        have t1 := T q₀.s (.inl (.inl ⟨q₀, h₀, .inl rfl⟩))
        have t2 := T q₀.p (.inl (.inl ⟨q₀, h₀, .inr (.inl rfl)⟩))
        have t3 := T q₀.o (.inl (.inl ⟨q₀, h₀, .inr (.inr (.inl rfl))⟩))
        simp only [Quad.map, Quad.mk.injEq, Option.map_map]
        refine ⟨t1, t2, t3, ?_⟩
        cases hg : q₀.g with
        | none => rfl
        | some r =>
          simp only [Option.map_some, Function.comp, Option.some.injEq]
          exact T r (.inl (.inl ⟨q₀, h₀, .inr (.inr (.inr hg))⟩))
      constructor
      · rintro ⟨q₀, h₀, rfl⟩
        exact ⟨q₀.map f, (hq _).2 ⟨q₀, h₀, rfl⟩, (key q₀ h₀).symm⟩
      · rintro ⟨q₁, h₁, rfl⟩
        obtain ⟨q₀, h₀, rfl⟩ := (hq q₁).1 h₁
        exact ⟨q₀, h₀, key q₀ h₀⟩
    · rw [hv', hv, List.map_map]
      refine List.map_congr_left fun i hi => ?_
      exact (T (.input i) (.inl (.inr ⟨i, List.mem_range.1 hi, rfl⟩))).symm

/-- **C69** (consequence). What is read from a dehydrated dataset does not depend on the names of blank nodes: hydration of the two
datasets gives the same tree, unless it panics (see C07 for why panics depend on the order of quads) or exceeds the bound. -/
theorem C69_hydrate_alike (c : DeCtx) (hreg : c.reg.Closed) (n : Nat) (v : Value) (ref : Term) (o o' : DeOptions)
    (hcount : o'.inputCount = o.inputCount) (hin : o'.inputTerm = o.inputTerm)
    (hord : ∀ l, (o.order l).Perm l) (hord' : ∀ l, (o'.order l).Perm l)
    (ho : FreshNames c.reg o) (ho' : FreshNames c.reg o') (quads quads' : List (Quad Term)) (values values' : List Term)
    (h : dehydrate c n v ref o = .ok (quads, values)) (h' : dehydrate c n v ref o' = .ok (quads', values'))
    (le : TypedValue Term → TypedValue Term → Bool) (hle : TotalOrder le) (m : Nat) (lay : Term) (w : TypedValue Term)
    (hw : Hydrate.hydrate (.ofTerms c.reg c.xsd le quads) m none lay values = .ok w)
    (hp : Hydrate.hydrate (.ofTerms c.reg c.xsd le quads') m none lay values' ≠ .panic)
    (hf : Hydrate.hydrate (.ofTerms c.reg c.xsd le quads') m none lay values' ≠ .fuel) :
    Hydrate.hydrate (.ofTerms c.reg c.xsd le quads') m none lay values' = .ok w := by
  obtain ⟨quads₁, values₁, f, h₁, hb, hq, hv⟩ :=
    C69_unique_up_to_blank c n v ref o o' hcount hin hord hord' ho ho' quads values h
  rw [h'] at h₁
  simp only [Out.ok.injEq, Prod.mk.injEq] at h₁
  obtain ⟨rfl, rfl⟩ := h₁
  obtain ⟨-, -, -, -, -, -, -, -, -, -, hnd, -⟩ := C14_one_term_per_resource c n v ref o hord quads values h
  obtain ⟨-, -, -, -, -, -, -, -, -, -, hnd', -⟩ := C14_one_term_per_resource c n v ref o' hord' quads' values' h'
  have uses : ∀ t, (HyCtx.ofTerms c.reg c.xsd le quads).Uses none values t →
      (∃ q ∈ quads, q.Has t) ∨ t ∈ values ∨ c.reg.HasConstant t := by
    rintro t (h | h | h | h)
    · exact .inl h
    · exact .inr (.inr h)
    · cases h
    · exact .inr (.inl h)
  have hren := C67_same_tree (.ofTerms c.reg c.xsd le quads) (.ofTerms c.reg c.xsd le (quads.map (Quad.map f))) f none values rfl rfl rfl
    rfl (fun t t' ht ht' => hb.injective t t' (uses t ht) (uses t' ht')) hb.constant
    (by
      intro t _
      cases t with
      | iri i => rw [hb.iri]; rfl
      | literal l => rw [hb.literal]; rfl
      | blank b => obtain ⟨b', e⟩ := hb.blank b; rw [e]; rfl)
    (by
      intro t _
      cases t with
      | iri i => rw [hb.iri]; rfl
      | literal l => rw [hb.literal]; rfl
      | blank b => obtain ⟨b', e⟩ := hb.blank b; rw [e]; rfl) m lay w
  have hw' := hren.2 hw
  rw [← hv] at hw'
  have hndf : (quads.map (Quad.map f)).Nodup := by
    refine List.Nodup.map_on (fun q hq q' hq' e => ?_) hnd
    simp only [Quad.map, Quad.mk.injEq] at e
    obtain ⟨e1, e2, e3, e4⟩ := e
    have inj : ∀ t t', q.Has t → q'.Has t' → f t = f t' → t = t' := fun t t' ht ht' =>
      hb.injective t t' (.inl ⟨q, hq, ht⟩) (.inl ⟨q', hq', ht'⟩)
    obtain ⟨s₁, p₁, o₁, g₁⟩ := q
    obtain ⟨s₂, p₂, o₂, g₂⟩ := q'
    simp only [Quad.mk.injEq]
    refine ⟨inj _ _ (.inl rfl) (.inl rfl) e1, inj _ _ (.inr (.inl rfl)) (.inr (.inl rfl)) e2,
      inj _ _ (.inr (.inr (.inl rfl))) (.inr (.inr (.inl rfl))) e3, ?_⟩
    cases g₁ <;> cases g₂ <;> simp only [Option.map_some, Option.map_none, reduceCtorEq, Option.some.injEq] at e4
    · rfl
    · rw [inj _ _ (.inr (.inr (.inr rfl))) (.inr (.inr (.inr rfl))) e4]
  have hne : Hydrate.hydrate (.ofTerms c.reg c.xsd le (quads.map (Quad.map f))) m (none : Option Term) lay values' = .ok w := hw'
  refine (C07_hydrate_dataset_is_a_set_partial (.ofTerms c.reg c.xsd le (quads.map (Quad.map f))) quads' hreg hndf hnd' hle ?_ m none lay
    values' (by rw [hne]; simp) hp (by rw [hne]; simp) hf w).1 hne
  intro q
  rw [hq q]
  simp only [HyCtx.ofTerms, List.mem_map, eq_comm]

/-! ## Default names -/

theorem lookup_buildAll {R : Type} [DecidableEq R] {debug : Bool} {fuel : Nat} (es : List (R × Entry R))
    (ls : List (R × Layout R × List (R × R))) (h : buildAll debug fuel es = .ok ls) (ref : R) (a : Layout R × List (R × R))
    (ha : ls.lookup ref = some a) : ∃ e, es.lookup ref = some e ∧ e.layout.build debug fuel = .ok a.1 := by
  induction es generalizing ls with
  | nil =>
    cases h
    cases ha
  | cons x es ih =>
    obtain ⟨r, x⟩ := x
    simp only [buildAll, Out.bind_eq_ok, Out.ok.injEq] at h
    obtain ⟨a', ha', ls', hls', rfl⟩ := h
    by_cases hr : ref = r
    · subst hr
      simp only [List.lookup_cons, beq_self_eq_true] at ha ⊢
      cases ha
      exact ⟨x, rfl, ha'⟩
    · simp only [List.lookup_cons, beq_false_of_ne hr] at ha ⊢
      exact ih ls' hls' ha

theorem compiled_means {R : Type} [DecidableEq R] {c : BuildCtx R} {defs : List SLayout} {b : Builder R} (hb : b.Compiled c defs)
    (ref : R) (e : Entry R) (he : b.layouts.lookup ref = some e) : ∃ l reg env, env.names = [] ∧ EntryMeans c reg l env e := by
  induction hb with
  | empty n => cases he
  | @define defs b b' n l r _ h ih =>
    rcases new_layouts c l _ b' r h ref e he with h | ⟨l', env, -, hn, hm⟩
    · exact ih h
    · exact ⟨l', _, env, hn, hm⟩

/-- **C69** (layouts). Compiled layouts mention no blank node, except as identifiers of layouts: in a layout definition `_:x` is a
variable. -/
theorem C69_compiled_constants (c : BuildCtx Term) (hc : c.OverTerms) (defs : List SLayout) (b : Builder Term)
    (hb : b.Compiled c defs) (debug : Bool) (fuel : Nat)
    (ls : List (Term × Layout Term × List (Term × Term))) (h : buildAll debug fuel b.layouts = .ok ls) (t : Term)
    (ht : Registry.HasConstant (Builder.registry ls) t) (x : String) : t ≠ .blank x := by
  obtain ⟨ref, l, hl, hr⟩ := ht
  simp only [Builder.registry, Option.map_eq_some_iff] at hl
  obtain ⟨a, ha, rfl⟩ := hl
  obtain ⟨e, he, hbuild⟩ := lookup_buildAll _ _ h ref a ha
  obtain ⟨l, reg, env, -, hm⟩ := compiled_means hb ref e he
  rcases hm.1.denotes hbuild t hr with ⟨i, rfl⟩ | ⟨l, rfl⟩
  · rw [hc.iri]
    intro e
    cases e
  · rw [hc.lit]
    intro e
    cases e

theorem default_input_ne (order) (i j : Nat) :
    (DeOptions.default order).generator i ≠ (DeOptions.default order).inputTerm j := by
  intro h
  simp only [DeOptions.default, Term.blank.injEq] at h
  have h := congrArg String.toList h
  have hi : 'i' ∈ Nat.toDigits 10 i := by
    rw [← Nat.toList_repr]
    refine (congrArg (fun l => 'i' ∈ l) h).mpr ?_
    simp
  have := Nat.isDigit_of_mem_toDigits (by decide) (by decide) hi
  revert this
  decide

/-- **C69** (default names). The names generated by default meet the conditions above for all compiled layouts: they are different,
occur neither in the layouts nor among the names of the inputs. -/
theorem C69_default_names (c : BuildCtx Term) (hc : c.OverTerms) (defs : List SLayout) (b : Builder Term)
    (hb : b.Compiled c defs) (debug : Bool) (fuel : Nat)
    (ls : List (Term × Layout Term × List (Term × Term))) (h : buildAll debug fuel b.layouts = .ok ls) (order) :
    FreshNames (Builder.registry ls) (.default order) where
  blank i := ⟨_, rfl⟩
  distinct i j h := by
    simp only [DeOptions.default, Term.blank.injEq] at h
    exact Nat.repr_injective h
  layouts i t ht e := C69_compiled_constants c hc defs b hb debug fuel ls h t ht _ e.symm
  inputs i j := default_input_ne order i j

/-! ## The hypotheses can be met -/

/-- Other names, drawn in the opposite order. -/
def otherOpts : DeOptions :=
  { DeExample.opts with generator := fun i => .blank (String.ofList (List.replicate (i + 1) 'x')), order := List.reverse }

theorem example_constant_iri (t : Term) (h : DeExample.ctx.reg.HasConstant t) : ∃ i, t = .iri i := by
  obtain ⟨ref, l, hl, h⟩ := h
  revert h
  refine DeExample.reg_cases (P := fun l => l.HasConstant t → ∃ i, t = .iri i) ?_ ?_ ?_ ?_ ?_ ?_ ?_ ref l hl <;> intro h <;>
    simp only [Layout.HasConstant, PatsHaveConstant, ValueFormat.HasConstant, DeExample.person, DeExample.text, DeExample.number,
      DeExample.ident, DeExample.tags, DeExample.rdfList, DeExample.either, DeExample.q, DeExample.c, DeExample.val, List.mem_cons,
      List.not_mem_nil, or_false, exists_eq_or_imp, exists_eq_left, false_and, exists_false, Pattern.res.injEq, reduceCtorEq,
      false_or] at h <;>
    grind

theorem example_names (ch : Char) (hch : ch ≠ 'i') (order) :
    FreshNames DeExample.ctx.reg
      { DeExample.opts with generator := fun i => .blank (String.ofList (List.replicate (i + 1) ch)), order } where
  blank i := ⟨_, rfl⟩
  distinct i j h := by
    simp only [Term.blank.injEq, String.ofList_inj] at h
    simpa using congrArg List.length h
  layouts i t h e := by
    obtain ⟨x, rfl⟩ := example_constant_iri t h
    cases e
  inputs i j h := by
    simp only [DeExample.opts, Term.blank.injEq] at h
    have := congrArg String.toList h
    split at this <;> simp [List.replicate_succ, hch] at this

-- The list of letters, with names `b`, `bb`, … and with names `x`, `xx`, … drawn in the opposite order.
example : ∃ quads' values' f, dehydrate DeExample.ctx 4 DeExample.letters (.iri "either") otherOpts = .ok (quads', values') ∧
    BlankRenaming DeExample.reg DeExample.opts DeExample.letterQuads [.blank "input0"] f ∧
    (∀ q, q ∈ quads' ↔ ∃ q₀ ∈ DeExample.letterQuads, q = q₀.map f) ∧ values' = [Term.blank "input0"].map f :=
  C69_unique_up_to_blank DeExample.ctx 4 DeExample.letters (.iri "either") DeExample.opts otherOpts rfl rfl (fun _ => .refl _)
    (fun l => l.reverse_perm) (example_names 'b' (by decide) _) (example_names 'x' (by decide) _) _ _ DeExample.dehydrate_letters

-- The compiled layouts of a person.
example : ∃ ls, buildAll true 0 SyExample.built.layouts = .ok ls ∧
    FreshNames (Builder.registry ls) (.default id) := by
  have h : ∃ ls, buildAll true 0 SyExample.built.layouts = .ok ls := ⟨_, rfl⟩
  obtain ⟨ls, h⟩ := h
  exact ⟨ls, h, C69_default_names SyExample.ctx ⟨fun _ => rfl, fun _ => rfl⟩ _ _ (.define 0 _ _ (.empty 0) SyExample.person_ok) true 0
    ls h id⟩

/-- The names do matter when they are not fresh: here the generator gives the name of the input to all resources, and the list cannot
be read back. -/
theorem Witness.C69_clash :
    let o := { DeExample.opts with generator := fun _ => .blank "input0" }
    let readBack (o : DeOptions) : Option Value :=
      match dehydrate DeExample.ctx 4 DeExample.letters (.iri "list") o with
      | .ok (quads, values) =>
        match Hydrate.hydrate (.ofTerms DeExample.reg DeExample.ctx.xsd (fun _ _ => true) quads) 5 none (.iri "list") values with
        | .ok w => some w.untype
        | _ => none
      | _ => none
    ¬ FreshNames DeExample.reg o ∧ readBack DeExample.opts = some DeExample.letters ∧ readBack o = none := by
  refine ⟨fun h => ?_, by decide +kernel, by decide +kernel⟩
  have := h.distinct 0 1 rfl
  cases this

end Verif.Props
