import Verif.RenameHydrate
import Verif.HydrateExample

/-!
# Properties C67, C68 (invariance of hydration)

The specification is in `Verif/RenameSpec.lean` (`HyCtx.Uses`, `Layout.Ignores`, `HyError.rename`).
-/

set_option linter.unusedSectionVars false
set_option linter.unusedSimpArgs false

namespace Verif.Props

open Verif.Hydrate

variable {R : Type _} [DecidableEq R]

/-- **C67.** Renaming the resources of the dataset, the inputs and the graph in a way that does not merge resources in use, keeps
their IRIs and literals, and leaves alone the constants of the layouts, does not change the outcome of hydration: same tree, same
error (with the nodes it mentions renamed), same panic. -/
theorem C67_rename (c c' : HyCtx R) (f : R → R) (g : Option R) (inputs : List R)
    (hreg : c'.reg = c.reg) (hxsd : c'.xsd = c.xsd) (hle : c'.le = c.le) (hds : c'.ds = c.ds.map (Quad.map f))
    (hinj : ∀ r r', c.Uses g inputs r → c.Uses g inputs r' → f r = f r' → r = r')
    (hconst : ∀ r, c.reg.HasConstant r → f r = r)
    (hiris : ∀ r, c.Uses g inputs r → c'.irisOf (f r) = c.irisOf r)
    (hlits : ∀ r, c.Uses g inputs r → c'.literalsOf (f r) = c.literalsOf r) (n : Nat) (ref : R) :
    hydrate c' n (g.map f) ref (inputs.map f) = (hydrate c n g ref inputs).mapErr (HyError.rename f) := by
  have E : Extension f (c.Uses g inputs) (fun _ => False) c c' :=
    { reg := hreg, xsd := hxsd, le := hle, iris := hiris, literals := hlits, injective := hinj
      constants := fun r h => ⟨.inr (.inl h), hconst r h⟩
      quads := fun q hq r h => .inl ⟨q, hq, h⟩
      dataset := by
        rw [hds]
        generalize c.ds = l
        induction l with
        | nil => exact .nil
        | cons q l ih => exact .keep q ih
      ignored := fun _ h => h.elim }
  exact hydrate_rename E n g ref inputs (fun r h => .inr (.inr (.inl h))) (fun r h => .inr (.inr (.inr h)))

/-- **C67** (corollary). The tree obtained does not depend on the names of the resources. -/
theorem C67_same_tree (c c' : HyCtx R) (f : R → R) (g : Option R) (inputs : List R)
    (hreg : c'.reg = c.reg) (hxsd : c'.xsd = c.xsd) (hle : c'.le = c.le) (hds : c'.ds = c.ds.map (Quad.map f))
    (hinj : ∀ r r', c.Uses g inputs r → c.Uses g inputs r' → f r = f r' → r = r')
    (hconst : ∀ r, c.reg.HasConstant r → f r = r)
    (hiris : ∀ r, c.Uses g inputs r → c'.irisOf (f r) = c.irisOf r)
    (hlits : ∀ r, c.Uses g inputs r → c'.literalsOf (f r) = c.literalsOf r) (n : Nat) (ref : R) (v : TypedValue R) :
    hydrate c' n (g.map f) ref (inputs.map f) = .ok v ↔ hydrate c n g ref inputs = .ok v := by
  rw [C67_rename c c' f g inputs hreg hxsd hle hds hinj hconst hiris hlits n ref]
  exact Out.mapErr_eq_ok

theorem enriched_filter {keep : Quad R → Bool} (l : List (Quad R)) :
    Enriched id (fun e => e ∈ l ∧ keep e = false) (l.filter keep) l := by
  have key : ∀ l' : List (Quad R), l' ⊆ l → Enriched id (fun e => e ∈ l ∧ keep e = false) (l'.filter keep) l' := by
    intro l'
    induction l' with
    | nil => intro _; exact .nil
    | cons q l' ih =>
      intro hs
      have ih := ih fun x hx => hs (by simp [hx])
      cases hk : keep q with
      | true =>
        rw [List.filter_cons_of_pos hk]
        have := Enriched.keep q ih
        have e : q.map id = q := by cases q; simp [Quad.map]
        rwa [e] at this
      | false =>
        rw [List.filter_cons_of_neg (by simp [hk])]
        exact .add ⟨hs (by simp), hk⟩ ih
  exact key l (fun _ h => h)

theorem rename_id (e : HyError R) : e.rename id = e := by
  unfold HyError.rename
  split <;> rfl

theorem mapErr_rename_id {α} (x : Out (HyError R) α) : x.mapErr (HyError.rename id) = x := by
  cases x <;> simp [Out.mapErr, rename_id]

/-- **C68.** Removing from a dataset quads that the layouts ignore does not change the outcome of hydration. A quad `e` is ignored
when each pattern of each layout has a constant that differs from `e`, or has as its subject a variable that is already known at
that point while the subject of `e` is not used elsewhere (in what remains of the dataset, the layouts, the graph and the inputs). -/
theorem C68_ignored (c : HyCtx R) (keep : Quad R → Bool) (g : Option R) (inputs : List R)
    (hig : ∀ e ∈ c.ds, keep e = false → ∀ ref l, c.reg ref = some l →
      l.Ignores e (¬ { c with ds := c.ds.filter keep }.Uses g inputs e.s)) (n : Nat) (ref : R) :
    hydrate { c with ds := c.ds.filter keep } n g ref inputs = hydrate c n g ref inputs := by
  have mono : ∀ (e : Quad R) (p p' : Prop), (p → p') → ∀ (pats : List (QuadPat R)) (b : Nat → Prop), Ignored e p b pats →
      Ignored e p' b pats := by
    intro e p p' hp pats
    induction pats with
    | nil => intro _ _; trivial
    | cons q rest ih =>
      rintro b ⟨h1, h2⟩
      exact ⟨h1.imp id fun ⟨h, hx⟩ => ⟨hp h, hx⟩, ih _ h2⟩
  have E : Extension id ({ c with ds := c.ds.filter keep }.Uses g inputs) (fun e => e ∈ c.ds ∧ keep e = false)
      { c with ds := c.ds.filter keep } c :=
    { reg := rfl, xsd := rfl, le := rfl, iris := fun _ _ => rfl, literals := fun _ _ => rfl, injective := fun _ _ _ _ h => h
      constants := fun r h => ⟨.inr (.inl h), rfl⟩
      quads := fun q hq r h => .inl ⟨q, hq, h⟩
      dataset := enriched_filter c.ds
      ignored := by
        rintro e ⟨he, hk⟩ ref l hl
        have h := hig e he hk ref l hl
        have hp : ¬ { c with ds := c.ds.filter keep }.Uses g inputs e.s →
            ∀ r, { c with ds := c.ds.filter keep }.Uses g inputs r → id r ≠ e.s := fun hn r hr he => hn (he ▸ hr)
        have m := fun pats b => mono e _ _ hp pats b
        cases l with
        | never => trivial
        | always => trivial
        | unit l => exact m _ _ h
        | boolean l => exact m _ _ h
        | number l => exact m _ _ h
        | byteString l => exact m _ _ h
        | textString l => exact m _ _ h
        | id l => exact m _ _ h
        | product l => exact ⟨m _ _ h.1, fun f hf => m _ _ (h.2 f hf)⟩
        | unordered l => exact ⟨m _ _ h.1, m _ _ h.2⟩
        | ordered l => exact ⟨m _ _ h.1, m _ _ h.2⟩
        | sized l => exact ⟨m _ _ h.1, fun f hf => m _ _ (h.2 f hf)⟩
        | sum l => exact ⟨m _ _ h.1, fun f hf => m _ _ (h.2 f hf)⟩ }
  have := hydrate_rename E n g ref inputs (fun r h => .inr (.inr (.inl h))) (fun r h => .inr (.inr (.inr h)))
  simp only [Option.map_id_fun, id_eq, List.map_id_fun, mapErr_rename_id] at this
  exact this.symm

/-- **C68** (predicates). In particular, quads whose predicate is none of those of the layouts are ignored. -/
theorem C68_predicates (c : HyCtx R) (keep : Quad R → Bool) (g : Option R) (inputs : List R)
    (hp : ∀ e ∈ c.ds, keep e = false → ∀ ref l, c.reg ref = some l → ∀ pat ∈ l.patterns, ∃ r, pat.p = .res r ∧ r ≠ e.p)
    (n : Nat) (ref : R) :
    hydrate { c with ds := c.ds.filter keep } n g ref inputs = hydrate c n g ref inputs := by
  refine C68_ignored c keep g inputs (fun e he hk ref l hl => ?_) n ref
  have h := hp e he hk ref l hl
  have key : ∀ (p : Prop) (pats : List (QuadPat R)) (b : Nat → Prop), (∀ pat ∈ pats, ∃ r, pat.p = .res r ∧ r ≠ e.p) →
      Ignored e p b pats := by
    intro p pats
    induction pats with
    | nil => intro _ _; trivial
    | cons q rest ih => exact fun b h => ⟨.inl (.inr (.inl (h q (by simp)))), ih _ fun x hx => h x (by simp [hx])⟩
  cases l with
  | never => trivial
  | always => trivial
  | unit l => exact key _ _ _ h
  | boolean l => exact key _ _ _ h
  | number l => exact key _ _ _ h
  | byteString l => exact key _ _ _ h
  | textString l => exact key _ _ _ h
  | id l => exact key _ _ _ h
  | product l =>
    exact ⟨key _ _ _ fun p hp => h p (by simp [Layout.patterns, hp]),
      fun f hf => key _ _ _ fun p hp => h p (List.mem_append_right _ (List.mem_flatMap.2 ⟨f, hf, hp⟩))⟩
  | unordered l =>
    exact ⟨key _ _ _ fun p hp => h p (by simp [Layout.patterns, hp]), key _ _ _ fun p hp => h p (by simp [Layout.patterns, hp])⟩
  | ordered l =>
    exact ⟨key _ _ _ fun p hp => h p (by simp [Layout.patterns, hp]), key _ _ _ fun p hp => h p (by simp [Layout.patterns, hp])⟩
  | sized l =>
    exact ⟨key _ _ _ fun p hp => h p (by simp [Layout.patterns, hp]),
      fun f hf => key _ _ _ fun p hp => h p (List.mem_append_right _ (List.mem_flatMap.2 ⟨f, hf, hp⟩))⟩
  | sum l =>
    exact ⟨key _ _ _ fun p hp => h p (by simp [Layout.patterns, hp]),
      fun f hf => key _ _ _ fun p hp => h p (List.mem_append_right _ (List.mem_flatMap.2 ⟨f, hf, hp⟩))⟩

/-! ## The hypotheses can be met -/

/-- The renaming: everything that the layouts do not mention. -/
def shift (r : Nat) : Nat := if r < 100 then r else r + 1000

/-- The renamed dataset. -/
def shifted : HyCtx Nat := { Example.ctx with
  ds := Example.ctx.ds.map (Quad.map shift)
  irisOf := fun r => Example.irisOf (if r < 100 then r else r - 1000)
  literalsOf := fun r => Example.literalsOf (if r < 100 then r else r - 1000) }

theorem example_constants (r : Nat) (h : Example.ctx.reg.HasConstant r) : r < 100 := by
  obtain ⟨ref, l, hl, h⟩ := h
  change Example.reg ref = some l at hl
  unfold Example.reg at hl
  split at hl <;> simp only [Option.some.injEq, reduceCtorEq] at hl <;> subst hl <;>
    simp [Example.person, Example.text, Example.tags, Example.rdfList, Example.either, Layout.HasConstant, PatsHaveConstant,
      ValueFormat.HasConstant, Example.q] at h <;> omega

example : hydrate shifted 5 none 0 [1100] = .ok Example.personTree := by
  refine (C67_same_tree Example.ctx shifted shift none [100] rfl rfl rfl rfl ?_ ?_ ?_ ?_ 5 0 _).2 Example.hydrate_person
  · intro r r' _ _ h
    unfold shift at h
    split at h <;> split at h <;> omega
  · intro r h
    have := example_constants r h
    simp [shift, this]
  · intro r _
    simp only [shifted, shift]
    split
    · rfl
    · rw [if_neg (by omega), Nat.add_sub_cancel]; rfl
  · intro r _
    simp only [shifted, shift]
    split
    · rfl
    · rw [if_neg (by omega), Nat.add_sub_cancel]; rfl

/-- The dataset, with a property of the person that the layouts do not know and another person's name. -/
def enriched : HyCtx Nat := { Example.ctx with ds := ⟨777, 12, 101, none⟩ :: ⟨100, 99, 100, none⟩ :: Example.ds }

/-- The original quads. -/
def original (q : Quad Nat) : Bool := q.s != 777 && q.p != 99

theorem enriched_filter_original : { enriched with ds := enriched.ds.filter original } = Example.ctx := by
  have : enriched.ds.filter original = Example.ds := by decide
  rw [this]; rfl

example : hydrate enriched 5 none 0 [100] = .ok Example.personTree := by
  rw [← C68_ignored enriched original none [100] ?_ 5 0, enriched_filter_original]
  · exact Example.hydrate_person
  · rw [enriched_filter_original]
    have hn : ¬ Example.ctx.Uses none [100] 777 := by
      rintro (⟨q, hq, h⟩ | h | h | h)
      · have : ∀ q ∈ Example.ds, ¬ (777 = q.s ∨ 777 = q.p ∨ 777 = q.o ∨ q.g = some 777) := by decide
        exact this q hq h
      · have := example_constants _ h; omega
      · cases h
      · simp at h
    intro e he hk ref l hl
    have he' : e = ⟨777, 12, 101, none⟩ ∨ e = ⟨100, 99, 100, none⟩ := by
      have : ∀ e ∈ enriched.ds, original e = false → e = ⟨777, 12, 101, none⟩ ∨ e = ⟨100, 99, 100, none⟩ := by decide
      exact this e he hk
    change Example.reg ref = some l at hl
    rcases he' with rfl | rfl
    · unfold Example.reg at hl
      split at hl <;> simp only [Option.some.injEq, reduceCtorEq] at hl <;> subst hl <;>
        simp [Example.person, Example.text, Example.tags, Example.rdfList, Example.either, Layout.Ignores, Ignored, known,
          QuadPat.Excludes, Example.q, hn]
    · unfold Example.reg at hl
      split at hl <;> simp only [Option.some.injEq, reduceCtorEq] at hl <;> subst hl <;>
        simp [Example.person, Example.text, Example.tags, Example.rdfList, Example.either, Layout.Ignores, Ignored, known,
          QuadPat.Excludes, Example.q]

example : hydrate { Example.ctx with ds := ⟨100, 99, 100, none⟩ :: Example.ds } 5 none 0 [100] = .ok Example.personTree := by
  have e : { Example.ctx with ds := (⟨100, 99, 100, none⟩ :: Example.ds).filter original } = Example.ctx := by
    have : (⟨100, 99, 100, none⟩ :: Example.ds).filter original = Example.ds := by decide
    rw [this]; rfl
  have := C68_predicates { Example.ctx with ds := ⟨100, 99, 100, none⟩ :: Example.ds } original none [100] ?_ 5 0
  · rw [← this]
    exact (congrArg (fun c => hydrate c 5 none 0 [100]) e).trans Example.hydrate_person
  · intro e he hk ref l hl
    have he' : ∀ e ∈ (⟨100, 99, 100, none⟩ :: Example.ds : List (Quad Nat)), original e = false → e = ⟨100, 99, 100, none⟩ := by
      decide
    rw [he' e he hk]
    change Example.reg ref = some l at hl
    unfold Example.reg at hl
    split at hl <;> simp only [Option.some.injEq, reduceCtorEq] at hl <;> subst hl <;>
      simp [Example.person, Example.text, Example.tags, Example.rdfList, Example.either, Layout.patterns, Example.q]

/-! ## The conditions are needed -/

namespace Witness

/-- The name of the only person: the pattern does not start from a known resource. -/
def onlyPerson : Layout Nat := .id
  { input := 1, intro := 1, dataset := [Example.q (.var 1) (.res 10) (.res 11)], resource := .var 1, pattern := none }

/-- The context with one person, and other people `ds`. -/
def people (ds : List (Quad Nat)) : HyCtx Nat :=
  { Example.ctx with reg := fun r => if r = 0 then some onlyPerson else none, ds := ⟨100, 10, 11, none⟩ :: ds }

/-- **C68** (condition). A pattern that starts from an unknown variable also sees subjects used nowhere else: another person in the
dataset makes it ambiguous. -/
theorem C68_unrooted :
    hydrate (people []) 1 none 0 [5] = .ok (.literal (.id "http://example.org/alice" 0)) ∧
    hydrate (people [⟨300, 10, 11, none⟩]) 1 none 0 [5] = .err (.dataAmbiguity (.discriminant 0)) := by
  constructor <;> decide +kernel

/-- **C67** (condition). Merging two resources changes the outcome: with both tags named `102` the set has one element. -/
theorem C67_merged : ∃ v, hydrate { Example.ctx with ds := Example.ds.map (Quad.map fun r => if r = 103 then 102 else r) } 5 none 0 [100]
    = .ok v ∧ v ≠ Example.personTree := by
  refine ⟨.map [(.text "name", .literal (.textString "Alice" 1)),
    (.text "tags", .list [.literal (.textString "b" 1), .literal (.textString "b" 1)] 2)] 0, ?_, ?_⟩
  · decide +kernel
  · simp [Example.personTree]

end Witness

end Verif.Props
