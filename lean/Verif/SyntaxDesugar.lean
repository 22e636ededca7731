import Verif.SyntaxSafe
import Verif.SyntaxClosed

/-!
# Shorthands of the layout syntax
-/

set_option linter.unusedSectionVars false
set_option linter.unusedSimpArgs false

namespace Verif

variable {R : Type} [DecidableEq R]

theorem dataset_build_append (c : BuildCtx R) (s : Scope) (ds : List (Quad SPattern)) (q : Quad SPattern) (acc : List (QuadPat R)) :
    SDataset.build c s (ds ++ [q]) acc =
      (SDataset.build c s ds acc).bind fun ds' => (SQuad.build c s q).bind fun q' => .ok (dsInsert c.leQ q' ds') := by
  induction ds generalizing acc with
  | nil => rfl
  | cons q₀ ds ih =>
    simp only [List.cons_append, SDataset.build]
    cases SQuad.build c s q₀ with
    | ok q' => exact ih _
    | err e => rfl
    | panic => rfl
    | fuel => rfl

/-- The explicit quad of a `property`. -/
def propertyQuad (x : String) (p : SPattern) (y : String) : Quad SPattern := ⟨.var x, p, .var y, none⟩

theorem propertyQuad_build (c : BuildCtx R) (s : Scope) (x y : String) (i j : Nat) (p : SPattern) (hx : s.index x = .ok i)
    (hy : s.index y = .ok j) :
    SQuad.build c s (propertyQuad x p y) = (p.build c s).bind fun p' => .ok ⟨.var i, p', .var j, none⟩ := by
  have h1 : SPattern.build c s (.var x) = .ok (.var i) := by simp [SPattern.build, hx]
  have h2 : SPattern.build c s (.var y) = .ok (.var j) := by simp [SPattern.build, hy]
  simp only [SQuad.build, propertyQuad, h1, h2, Out.bind_ok, optBuild]

theorem propDataset_desugar (c : BuildCtx R) (s : Scope) (x y : String) (i j : Nat) (p : SPattern) (ds : List (Quad SPattern))
    (hx : s.index x = .ok i) (hy : s.index y = .ok j) :
    buildPropDataset c s (some i) (some j) ds (some p) =
      buildPropDataset c s (some i) (some j) (ds ++ [propertyQuad x p y]) none := by
  simp only [buildPropDataset, dataset_build_append, propertyQuad_build c s x y i j p hx hy]
  cases SDataset.build c s ds [] with
  | ok ds' =>
    simp only [Out.bind_ok]
    cases p.build c s <;> rfl
  | err e => rfl
  | panic => rfl
  | fuel => rfl

theorem buildFields_congr (c : BuildCtx R) (subject : Option Nat) (count : Nat) (s : Scope) (name : Value) (f f' : SField)
    (h : f.build c subject count s = f'.build c subject count s) (pre post : List (Value × SField)) :
    buildFields c subject count (pre ++ (name, f) :: post) s = buildFields c subject count (pre ++ (name, f') :: post) s := by
  induction pre with
  | nil => simp only [List.nil_append, buildFields, h]
  | cons e pre ih =>
    obtain ⟨n, e⟩ := e
    simp only [List.cons_append, buildFields, ih]

theorem buildItems_congr (c : BuildCtx R) (subject : Option Nat) (s : Scope) (f f' : SItem)
    (h : f.build c subject s = f'.build c subject s) (pre post : List SItem) :
    buildItems c subject (pre ++ f :: post) s = buildItems c subject (pre ++ f' :: post) s := by
  induction pre with
  | nil => simp only [List.nil_append, buildItems, h]
  | cons e pre ih => simp only [List.cons_append, buildItems, ih]

theorem asSlice_ne_nil_of_binds {input intro inner : List String} {x : String} (h : NameDenotes (input ++ intro ++ inner) x 0)
    (hn : input.head? = some x) : input ≠ [] := by
  rintro rfl
  cases hn

theorem subjectOf_some {input : OneOrMany String} (h : input.asSlice ≠ []) : subjectOf input = some 0 := by
  unfold subjectOf
  rw [if_neg]
  intro he
  exact h ((OneOrMany.isEmpty_iff _).1 he)

theorem objectOf_some {intro : OneOrMany String} {count : Nat} (h : intro.asSlice ≠ []) : objectOf intro count = some count := by
  unfold objectOf
  rw [if_neg]
  intro he
  exact h ((OneOrMany.isEmpty_iff _).1 he)

theorem field_desugar (c : BuildCtx R) (s : Scope) (input intro : OneOrMany String) (count : Nat) (value : SFormat)
    (ds : List (Quad SPattern)) (p : SPattern) (required : Bool) (x y : String) (h1 : input.asSlice ≠ []) (h2 : intro.asSlice ≠ [])
    (hx : (s.withIntro intro.asSlice).index x = .ok 0) (hy : (s.withIntro intro.asSlice).index y = .ok count) :
    (SField.mk intro value ds (some p) required).build c (subjectOf input) count s =
      (SField.mk intro value (ds ++ [propertyQuad x p y]) none required).build c (subjectOf input) count s := by
  simp only [SField.build, subjectOf_some h1, objectOf_some h2, propDataset_desugar c _ x y 0 count p ds hx hy]

theorem item_desugar (c : BuildCtx R) (s : Scope) (input intro : OneOrMany String) (value : SFormat)
    (ds : List (Quad SPattern)) (p : SPattern) (x y : String) (h1 : input.asSlice ≠ []) (h2 : intro.asSlice ≠ [])
    (hx : (s.withIntro intro.asSlice).index x = .ok 0) (hy : (s.withIntro intro.asSlice).index y = .ok s.count) :
    (SItem.mk intro value ds (some p)).build c (subjectOf input) s =
      (SItem.mk intro value (ds ++ [propertyQuad x p y]) none).build c (subjectOf input) s := by
  simp only [SItem.build, subjectOf_some h1, objectOf_some h2, propDataset_desugar c _ x y 0 s.count p ds hx hy]

theorem lift_bind_congr {α β : Type} (x : Out BuildError α) (f g : α → BuildM R β) (h : ∀ a, x = .ok a → f a = g a) :
    (BuildM.lift x).bind f = (BuildM.lift x).bind g := by
  funext b
  cases x with
  | ok a => exact congrFun (h a rfl) b
  | err e => rfl
  | panic => rfl
  | fuel => rfl

theorem mem_of_lookup_some {κ α : Type} [DecidableEq κ] {k : κ} {v : α} {m : List (κ × α)} (h : m.lookup k = some v) : (k, v) ∈ m := by
  induction m with
  | nil => cases h
  | cons e m ih =>
    obtain ⟨k', v'⟩ := e
    rw [lookup_cons_ite] at h
    split at h
    · rename_i hk
      cases h
      simp [hk]
    · exact List.mem_cons_of_mem _ (ih h)

/-- The scope opened by a header outside of any variable. -/
theorem header_scope_index {c : BuildCtx R} {s : Scope} (hs : s.vars = [] ∧ s.count = 0) {h : LayoutHeader} {b : BuiltHeader R}
    (hb : h.build c s = .ok b) (inner : List String) (x : String) (i : Nat) :
    (b.scope.withIntro inner).index x = .ok i ↔ NameDenotes (h.input.asSlice ++ h.intro.asSlice ++ inner) x i := by
  have hm : s.Matches ⟨s.baseIri, fun x => s.prefixes.lookup x, []⟩ :=
    ⟨rfl, fun _ => rfl, hs.2, fun x i => by rw [hs.1]; simp [NameDenotes]⟩
  obtain ⟨env', hm', hh, -⟩ := header_means hm hb
  rw [index_ok (hm'.withIntro inner)]
  simp only [LexEnv.declare, hh.opens.names, List.nil_append]

theorem header_scope_count {c : BuildCtx R} {s : Scope} (hs : s.vars = [] ∧ s.count = 0) {h : LayoutHeader} {b : BuiltHeader R}
    (hb : h.build c s = .ok b) : b.scope.count = h.input.asSlice.length + h.intro.asSlice.length := by
  have hm : s.Matches ⟨s.baseIri, fun x => s.prefixes.lookup x, []⟩ :=
    ⟨rfl, fun _ => rfl, hs.2, fun x i => by rw [hs.1]; simp [NameDenotes]⟩
  obtain ⟨env', hm', hh, -⟩ := header_means hm hb
  rw [hm'.count, hh.opens.names]
  simp

end Verif
