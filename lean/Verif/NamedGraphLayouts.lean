import Verif.NamedGraph
import Verif.Dehydrate

/-! # Layouts that name a graph -/

set_option linter.unusedSectionVars false
set_option linter.unusedSimpArgs false

namespace Verif

variable {R : Type _} [DecidableEq R]

theorem inputCount_mapPatterns (f : QuadPat R → QuadPat R) (l : Layout R) : (l.mapPatterns f).inputCount = l.inputCount := by
  cases l <;> rfl

namespace Hydrate

open Matching

variable (c : HyCtx R) (reg : Registry R) (g : R) (g' : Option R)

theorem withDefaultGraph_naming {pats : List (QuadPat R)} (h : ∀ p ∈ pats, p.g = none) :
    withDefaultGraph (pats.map fun p => { p with g := some (.res g) }) g' = withDefaultGraph pats (some g) := by
  unfold withDefaultGraph
  rw [List.map_map]
  refine List.map_congr_left fun p hp => ?_
  simp [h p hp]

theorem unique_naming (frag : DataFragment R) (σ : Subst R) {pats : List (QuadPat R)} (h : ∀ p ∈ pats, p.g = none) :
    uniqueMatch { c with reg := reg } frag σ (pats.map fun p => { p with g := some (.res g) }) g' =
      uniqueMatch c frag σ pats (some g) := by
  simp only [uniqueMatch, withDefaultGraph_naming g g' h]

theorem required_naming (frag : DataFragment R) (σ : Subst R) {pats : List (QuadPat R)} (h : ∀ p ∈ pats, p.g = none) :
    requiredMatch { c with reg := reg } frag σ (pats.map fun p => { p with g := some (.res g) }) g' =
      requiredMatch c frag σ pats (some g) := by
  simp only [requiredMatch, withDefaultGraph_naming g g' h]

variable {P : R → Prop} {rec rec' : Rec R} (hrec : ∀ ref, P ref → ∀ ins, rec' g' ref ins = rec (some g) ref ins)

include hrec

theorem subValue_naming {fmt : ValueFormat R} (h : fmt.graph = none ∧ P fmt.layout) (σ : Subst R) :
    subValue rec' g' fmt σ = subValue rec (some g) fmt σ := by
  simp only [subValue, h.1, selectGraph, Out.bind_ok, hrec _ h.2]

theorem variants_naming (ref : R) (σ : Subst R) {vs : List (Variant R)}
    (h : ∀ v ∈ vs, (∀ p ∈ v.dataset, p.g = none) ∧ v.value.graph = none ∧ P v.value.layout) (i : Nat) (sel : Option (Nat × TypedValue R)) :
    variants { c with reg := reg } rec' g' ref σ i
      (vs.map fun v => { v with dataset := v.dataset.map fun p => { p with g := some (.res g) } }) sel =
      variants c rec (some g) ref σ i vs sel := by
  induction vs generalizing i sel with
  | nil => cases sel <;> rfl
  | cons v vs ih =>
    have ih := ih (fun x hx => h x (by simp [hx]))
    obtain ⟨h1, h2⟩ := h v (by simp)
    simp only [variants, List.map_cons]
    rw [unique_naming c reg g g' _ σ h1]
    congr 1
    funext o
    cases o with
    | none => exact ih _ _
    | some σ' =>
      simp only
      rw [subValue_naming g g' hrec h2]
      cases subValue rec (some g) v.value σ' with
      | ok w => cases sel <;> simp [ih]
      | err e => exact ih _ _
      | panic => rfl
      | fuel => rfl

theorem fields_naming (ref : R) (σ : Subst R) {fs : List (Value × Field R)}
    (h : ∀ e ∈ fs, (∀ p ∈ e.2.dataset, p.g = none) ∧ e.2.value.graph = none ∧ P e.2.value.layout) :
    fields { c with reg := reg } rec' g' ref σ
      (fs.map fun e => (e.1, { e.2 with dataset := e.2.dataset.map fun p => { p with g := some (.res g) } })) =
      fields c rec (some g) ref σ fs := by
  induction fs with
  | nil => rfl
  | cons e fs ih =>
    have ih := ih (fun x hx => h x (by simp [hx]))
    obtain ⟨h1, h2⟩ := h e (by simp)
    obtain ⟨k, f⟩ := e
    simp only [fields, List.map_cons]
    rw [unique_naming c reg g g' _ _ h1]
    congr 1
    funext o
    cases o with
    | none => simp only [ih]
    | some σ' => simp only [subValue_naming g g' hrec h2, ih]

theorem nodes_naming (ref : R) {node : ItemLayout R} (h : ∀ p ∈ node.dataset, p.g = none) (h' : node.value.graph = none ∧ P node.value.layout) (σ : Subst R)
    (tail : R) (n : Nat) (head : R) :
    nodes { c with reg := reg } rec' g' ref
      { node with dataset := node.dataset.map fun p => { p with g := some (.res g) } } σ tail n head =
      nodes c rec (some g) ref node σ tail n head := by
  induction n generalizing head with
  | zero => rw [nodes, nodes]
  | succ n ih =>
    rw [nodes, nodes]
    simp only [required_naming c reg g g' _ _ h, subValue_naming g g' hrec h', ih]

theorem sizedItems_naming (ref : R) (σ : Subst R) {is : List (ItemLayout R)}
    (h : ∀ v ∈ is, (∀ p ∈ v.dataset, p.g = none) ∧ v.value.graph = none ∧ P v.value.layout) (i : Nat) :
    sizedItems { c with reg := reg } rec' g' ref σ i
      (is.map fun v => { v with dataset := v.dataset.map fun p => { p with g := some (.res g) } }) =
      sizedItems c rec (some g) ref σ i is := by
  induction is generalizing i with
  | nil => rfl
  | cons v is ih =>
    have ih := ih (fun x hx => h x (by simp [hx]))
    obtain ⟨h1, h2⟩ := h v (by simp)
    simp only [sizedItems, List.map_cons, required_naming c reg g g' _ _ h1, subValue_naming g g' hrec h2, ih]

theorem unorderedItems_naming {fmt : ValueFormat R} (hf : fmt.graph = none ∧ P fmt.layout) (n : Nat) (st : Stack R) :
    unorderedItems { c with reg := reg } rec' g' fmt n st = unorderedItems c rec (some g) fmt n st := by
  induction n generalizing st with
  | zero => rfl
  | succ n ih => simp only [unorderedItems, subValue_naming g g' hrec hf, ih]

theorem layout_naming (n : Nat) (ref : R) (ins : List R) {l : Layout R} (hp : ∀ p ∈ l.patterns, p.g = none)
    (hf : ∀ f ∈ l.formats, f.graph = none ∧ P f.layout) :
    layout { c with reg := reg } rec' n g' ref ins (l.mapPatterns fun p => { p with g := some (.res g) }) =
      layout c rec n (some g) ref ins l := by
  cases l with
  | never => rfl
  | always => rfl
  | unit l =>
    have h0 : ∀ p ∈ l.dataset, p.g = none := hp
    simp only [layout, Layout.mapPatterns, required_naming c reg g g' _ _ h0]
  | boolean l =>
    have h0 : ∀ p ∈ l.dataset, p.g = none := hp
    simp only [layout, Layout.mapPatterns, hydrateData, required_naming c reg g g' _ _ h0]
    rfl
  | number l =>
    have h0 : ∀ p ∈ l.dataset, p.g = none := hp
    simp only [layout, Layout.mapPatterns, hydrateData, required_naming c reg g g' _ _ h0]
    rfl
  | byteString l =>
    have h0 : ∀ p ∈ l.dataset, p.g = none := hp
    simp only [layout, Layout.mapPatterns, hydrateData, required_naming c reg g g' _ _ h0]
  | textString l =>
    have h0 : ∀ p ∈ l.dataset, p.g = none := hp
    simp only [layout, Layout.mapPatterns, hydrateData, required_naming c reg g g' _ _ h0]
  | id l =>
    have h0 : ∀ p ∈ l.dataset, p.g = none := hp
    simp only [layout, Layout.mapPatterns, hydrateId, required_naming c reg g g' _ _ h0]
  | sum l =>
    have h0 : ∀ p ∈ l.dataset, p.g = none := fun p h => hp p (List.mem_append.2 (.inl h))
    have h1 : ∀ v ∈ l.variants, (∀ p ∈ v.dataset, p.g = none) ∧ v.value.graph = none ∧ P v.value.layout := fun v hv =>
      ⟨fun p h => hp p (List.mem_append.2 (.inr (List.mem_flatMap.2 ⟨v, hv, h⟩))), hf _ (List.mem_map.2 ⟨v, hv, rfl⟩)⟩
    simp only [layout, Layout.mapPatterns, required_naming c reg g g' _ _ h0, variants_naming c reg g g' hrec _ _ h1]
  | product l =>
    have h0 : ∀ p ∈ l.dataset, p.g = none := fun p h => hp p (List.mem_append.2 (.inl h))
    have h1 : ∀ e ∈ l.fields, (∀ p ∈ e.2.dataset, p.g = none) ∧ e.2.value.graph = none ∧ P e.2.value.layout := fun v hv =>
      ⟨fun p h => hp p (List.mem_append.2 (.inr (List.mem_flatMap.2 ⟨v, hv, h⟩))), hf _ (List.mem_map.2 ⟨v, hv, rfl⟩)⟩
    simp only [layout, Layout.mapPatterns, required_naming c reg g g' _ _ h0, fields_naming c reg g g' hrec _ _ h1]
  | unordered l =>
    have h0 : ∀ p ∈ l.dataset, p.g = none := fun p h => hp p (List.mem_append.2 (.inl h))
    have h1 : ∀ p ∈ l.item.dataset, p.g = none := fun p h => hp p (List.mem_append.2 (.inr h))
    have h2 : l.item.value.graph = none ∧ P l.item.value.layout := hf _ (by simp [Layout.formats])
    simp only [layout, Layout.mapPatterns, required_naming c reg g g' _ _ h0, withDefaultGraph_naming g g' h1,
      unorderedItems_naming c reg g g' hrec h2]
  | ordered l =>
    have h0 : ∀ p ∈ l.dataset, p.g = none := fun p h => hp p (List.mem_append.2 (.inl h))
    have h1 : ∀ p ∈ l.node.dataset, p.g = none := fun p h => hp p (List.mem_append.2 (.inr h))
    simp only [layout, Layout.mapPatterns, required_naming c reg g g' _ _ h0,
      nodes_naming c reg g g' hrec _ h1 (hf _ (by simp [Layout.formats]))]
  | sized l =>
    have h0 : ∀ p ∈ l.dataset, p.g = none := fun p h => hp p (List.mem_append.2 (.inl h))
    have h1 : ∀ v ∈ l.items, (∀ p ∈ v.dataset, p.g = none) ∧ v.value.graph = none ∧ P v.value.layout := fun v hv =>
      ⟨fun p h => hp p (List.mem_append.2 (.inr (List.mem_flatMap.2 ⟨v, hv, h⟩))), hf _ (List.mem_map.2 ⟨v, hv, rfl⟩)⟩
    simp only [layout, Layout.mapPatterns, required_naming c reg g g' _ _ h0, sizedItems_naming c reg g g' hrec _ _ h1]

omit hrec in
/-- Layouts that name a graph read it, whatever the current graph. -/
theorem hydrate_naming (root : R) (h : NoGraph c.reg root) (n : Nat) (ref : R) (hr : Reaches c.reg root ref) (ins : List R) :
    hydrate { c with reg := c.reg.naming g } n g' ref ins = hydrate c n (some g) ref ins := by
  induction n generalizing ref ins with
  | zero => rfl
  | succ n ih =>
    simp only [hydrate, Registry.naming]
    cases hl : c.reg ref with
    | none => rfl
    | some l =>
      simp only [Option.map_some, inputCount_mapPatterns]
      split
      · rfl
      · exact layout_naming c _ g g' (P := Reaches c.reg root) ih n ref ins (h ref hr l hl).1
          fun f hf => ⟨(h ref hr l hl).2 f hf, .step hr hl hf⟩

end Hydrate

namespace Dehydrate

variable (g : Term)

/-- The quad in the graph. -/
def mv (q : Quad IRes) : Quad IRes := { q with g := some (.term g) }

/-- The state, with the output in the graph. -/
def mvState (s : DeState) : DeState := { s with out := s.out.map (mv g) }

/-- The output is in the default graph. -/
def AllDefault (s : DeState) : Prop := ∀ q ∈ s.out, q.g = none

/-- The second computation does what the first one does, and writes to the graph. -/
def Moves {α} (x x' : DeM α) : Prop := ∀ s, AllDefault s → x' (mvState g s) = ((x s).1, mvState g (x s).2) ∧ AllDefault (x s).2

theorem Moves.pure {α} (a : α) : Moves g (DeM.pure a) (DeM.pure a) := fun _ h => ⟨rfl, h⟩

theorem Moves.fail {α} (e : DeError) : Moves g (DeM.fail e : DeM α) (DeM.fail e) := fun _ h => ⟨rfl, h⟩

theorem Moves.bind {α β} {x x' : DeM α} {f f' : α → DeM β} (h : Moves g x x') (hf : ∀ a, Moves g (f a) (f' a)) :
    Moves g (x.bind f) (x'.bind f') := by
  intro s hs
  obtain ⟨h1, h2⟩ := h s hs
  unfold DeM.bind
  rw [h1]
  rcases hx : x s with ⟨o, s'⟩
  rw [hx] at h2
  cases o with
  | ok a => exact hf a s' h2
  | err e => exact ⟨rfl, h2⟩
  | panic => exact ⟨rfl, h2⟩
  | fuel => exact ⟨rfl, h2⟩

theorem Moves.read {α} {f f' : DeState → Out DeError α} (h : ∀ s, f' (mvState g s) = f s) :
    Moves g (DeM.read f) (DeM.read f') := fun s hs => ⟨by simp [DeM.read, h], hs⟩

theorem Moves.newResource : Moves g newResource newResource := fun _ h => ⟨rfl, h⟩

theorem Moves.newResources (n : Nat) : Moves g (newResources n) (newResources n) := by
  induction n with
  | zero => exact .pure g _
  | succ n ih => exact .bind g (.newResource g) fun _ => .bind g ih fun _ => .pure g _

theorem Moves.intro (env : Env IRes) (k : Nat) : Moves g (intro env k) (intro env k) :=
  .bind g (.newResources g k) fun _ => .pure g _

theorem mv_inj {q q' : Quad IRes} (h : q.g = none) (h' : q'.g = none) (e : mv g q = mv g q') : q = q' := by
  obtain ⟨a, b, c, d⟩ := q
  obtain ⟨a', b', c', d'⟩ := q'
  simp only at h h'
  subst h h'
  simpa [mv] using e

theorem insertQuad_mv {out : List (Quad IRes)} (h : ∀ q ∈ out, q.g = none) {q : Quad IRes} (hq : q.g = none) :
    insertQuad (out.map (mv g)) (mv g q) = (insertQuad out q).map (mv g) ∧ ∀ x ∈ insertQuad out q, x.g = none := by
  have e : mv g q ∈ out.map (mv g) ↔ q ∈ out := by
    constructor
    · intro hm
      obtain ⟨q', h1, h2⟩ := List.mem_map.1 hm
      exact mv_inj g (h q' h1) hq h2 ▸ h1
    · exact fun hm => List.mem_map.2 ⟨q, hm, rfl⟩
  unfold insertQuad
  by_cases hm : q ∈ out
  · simp [hm, e.2 hm, h]
    exact h
  · have : mv g q ∉ out.map (mv g) := fun x => hm (e.1 x)
    simp only [hm, this, if_false, List.map_append, List.map_cons, List.map_nil, true_and]
    intro x hx
    rcases List.mem_append.1 hx with hx | hx
    · exact h x hx
    · simp at hx; rw [hx]; exact hq

/-- The pattern in the graph. -/
abbrev patIn (p : QuadPat Term) : QuadPat Term := { p with g := some (.res g) }

theorem instQuad_patIn (env : Env IRes) {p : QuadPat Term} (h : p.g = none) :
    instQuad env (patIn g p) = (instQuad env p).map (mv g) := by
  unfold instQuad
  simp only [h]
  cases instPattern env p.s <;> try rfl
  cases instPattern env p.p <;> try rfl
  cases instPattern env p.o <;> rfl

theorem instQuad_plain (env : Env IRes) {p : QuadPat Term} (h : p.g = none) {q : Quad IRes} (hq : instQuad env p = .ok q) :
    q.g = none := by
  unfold instQuad at hq
  simp only [h] at hq
  cases hs : instPattern env p.s <;> rw [hs] at hq <;> simp at hq
  cases hp : instPattern env p.p <;> rw [hp] at hq <;> simp at hq
  cases ho : instPattern env p.o <;> rw [ho] at hq <;> simp at hq
  rw [← hq]

theorem Moves.instDataset (env : Env IRes) {ps : List (QuadPat Term)} (h : ∀ p ∈ ps, p.g = none) :
    Moves g (instDataset env ps) (instDataset env (ps.map (patIn g))) := by
  induction ps with
  | nil => exact .pure g _
  | cons p ps ih =>
    have ih := ih fun q hq => h q (by simp [hq])
    intro s hs
    simp only [Dehydrate.instDataset, List.map_cons, DeM.bind, DeM.read, DeM.modify, instQuad_patIn g env (h p (by simp))]
    cases hq : instQuad env p with
    | ok q =>
      have hg := instQuad_plain env (h p (by simp)) hq
      obtain ⟨e1, e2⟩ := insertQuad_mv g hs hg
      have := ih { s with out := insertQuad s.out q } e2
      simp only [Out.map, mvState, e1] at this ⊢
      exact this
    | err e => exact ⟨rfl, hs⟩
    | panic => exact ⟨rfl, hs⟩
    | fuel => exact ⟨rfl, hs⟩

theorem instLocal_patIn (env : Env IRes) {ps : List (QuadPat Term)} (h : ∀ p ∈ ps, p.g = none) :
    instLocal env (ps.map (patIn g)) = (instLocal env ps).map (List.map (mv g)) ∧
      ∀ qs, instLocal env ps = .ok qs → ∀ q ∈ qs, q.g = none := by
  unfold instLocal
  induction ps with
  | nil => exact ⟨rfl, by simp [Out.mapM']⟩
  | cons p ps ih =>
    obtain ⟨ih1, ih2⟩ := ih fun q hq => h q (by simp [hq])
    simp only [Out.mapM', List.map_cons, instQuad_patIn g env (h p (by simp)), ih1]
    cases hq : instQuad env p with
    | ok q =>
      have hg := instQuad_plain env (h p (by simp)) hq
      cases hr : Out.mapM' (instQuad env) ps with
      | ok qs =>
        refine ⟨rfl, ?_⟩
        intro x hx
        simp at hx
        subst hx
        intro y hy
        rcases List.mem_cons.1 hy with rfl | hy
        · exact hg
        · exact ih2 qs hr y hy
      | err e => exact ⟨rfl, by simp⟩
      | panic => exact ⟨rfl, by simp⟩
      | fuel => exact ⟨rfl, by simp⟩
    | err e => exact ⟨rfl, by simp⟩
    | panic => exact ⟨rfl, by simp⟩
    | fuel => exact ⟨rfl, by simp⟩

theorem Moves.assign (r : IRes) (t : Term) : Moves g (assign r t) (assign r t) := fun _ h => ⟨rfl, h⟩

theorem Moves.data (ins : List IRes) {l : DataLayout Term} (h : ∀ p ∈ l.dataset, p.g = none) (lit : List String → Out DeError RdfLit) :
    Moves g (data ins l lit) (data ins { l with dataset := l.dataset.map (patIn g) } lit) :=
  .bind g (.intro g _ _) fun env => .bind g (.instDataset g env h) fun _ => .bind g (.read g fun _ => rfl) fun _ =>
    .bind g (.read g fun _ => rfl) fun _ => .assign g _ _

theorem Moves.ident (c : DeCtx) (reg : Registry Term) (ins : List IRes) {l : IdLayout Term} (h : ∀ p ∈ l.dataset, p.g = none) (t : String) :
    Moves g (ident c ins l t) (ident { c with reg := reg } ins { l with dataset := l.dataset.map (patIn g) } t) := by
  refine .bind g (.intro g _ _) fun env => .bind g (.instDataset g env h) fun _ => .bind g (.read g fun _ => rfl) fun _ => ?_
  simp only
  split
  · exact .assign g _ _
  · exact .fail g _

variable {P : Term → Prop} {rec rec' : Rec} (hrec : ∀ v gr ref, P ref → ∀ ins, Moves g (rec v gr ref ins) (rec' v gr ref ins))
  (gr : Option IRes)

include hrec

theorem Moves.subValue {fmt : ValueFormat Term} (hP : P fmt.layout) (env : Env IRes) (v : Value) :
    Moves g (subValue rec gr fmt env v) (subValue rec' gr fmt env v) :=
  .bind g (.read g fun _ => rfl) fun _ => .bind g (.read g fun _ => rfl) fun _ => hrec _ _ _ hP _

omit hrec in
theorem foldl_mv (qs : List (Quad IRes)) (hq : ∀ q ∈ qs, q.g = none) (out : List (Quad IRes)) (h : ∀ q ∈ out, q.g = none) :
    (qs.map (mv g)).foldl insertQuad (out.map (mv g)) = (qs.foldl insertQuad out).map (mv g) ∧
      ∀ q ∈ qs.foldl insertQuad out, q.g = none := by
  induction qs generalizing out with
  | nil => exact ⟨rfl, h⟩
  | cons q qs ih =>
    obtain ⟨e1, e2⟩ := insertQuad_mv g h (hq q (by simp))
    simp only [List.map_cons, List.foldl_cons, e1]
    exact ih (fun x hx => hq x (by simp [hx])) _ e2

theorem Moves.variants (env : Env IRes) (v : Value) {vs : List (Variant Term)} (h : ∀ x ∈ vs, ∀ p ∈ x.dataset, p.g = none)
    (hP : ∀ x ∈ vs, P x.value.layout) (sel : Option (List (Quad IRes))) (hsel : ∀ qs, sel = some qs → ∀ q ∈ qs, q.g = none) :
    Moves g (variants rec gr env v vs sel)
      (variants rec' gr env v (vs.map fun x => { x with dataset := x.dataset.map (patIn g) }) (sel.map (List.map (mv g)))) := by
  induction vs generalizing sel with
  | nil =>
    cases sel with
    | none => exact .fail g _
    | some qs =>
      intro s hs
      obtain ⟨e1, e2⟩ := foldl_mv g qs (hsel qs rfl) s.out hs
      refine ⟨?_, e2⟩
      simp only [Dehydrate.variants, List.map_nil, Option.map_some, DeM.modify, mvState, e1]
  | cons x vs ih =>
    have ih := ih (fun y hy => h y (by simp [hy])) (fun y hy => hP y (by simp [hy]))
    simp only [Dehydrate.variants, List.map_cons]
    refine .bind g (.intro g _ _) fun venv => ?_
    obtain ⟨l1, l2⟩ := instLocal_patIn g venv (h x (by simp))
    intro s hs
    simp only [DeM.bind, DeM.read, l1]
    cases hl : instLocal venv x.dataset with
    | ok quads =>
      obtain ⟨e1, e2⟩ := Moves.subValue g hrec gr (hP x (by simp)) venv v s hs
      simp only [Out.map, e1]
      rcases hr : Dehydrate.subValue rec gr x.value venv v s with ⟨o, s'⟩
      rw [hr] at e2
      cases o with
      | ok _ =>
        cases sel with
        | none => exact ih (some quads) (fun qs e => by cases e; exact l2 quads hl) s' e2
        | some qs => exact ⟨rfl, e2⟩
      | err e => exact ih sel hsel s' e2
      | panic => exact ⟨rfl, e2⟩
      | fuel => exact ⟨rfl, e2⟩
    | err e => exact ⟨rfl, hs⟩
    | panic => exact ⟨rfl, hs⟩
    | fuel => exact ⟨rfl, hs⟩

omit hrec in
theorem lookup_map (f : Field Term → Field Term) (key : Value) (fs : List (Value × Field Term)) :
    lookup key (fs.map fun e => (e.1, f e.2)) = (lookup key fs).map f := by
  unfold lookup
  induction fs with
  | nil => rfl
  | cons e fs ih =>
    simp only [List.map_cons, List.find?_cons]
    cases e.1 == key with
    | true => rfl
    | false => exact ih

theorem Moves.entries (env : Env IRes) {fs : List (Value × Field Term)} (h : ∀ e ∈ fs, ∀ p ∈ e.2.dataset, p.g = none)
    (hP : ∀ e ∈ fs, P e.2.value.layout) (m : List (Value × Value)) :
    Moves g (entries rec gr env fs m)
      (entries rec' gr env (fs.map fun e => (e.1, { e.2 with dataset := e.2.dataset.map (patIn g) })) m) := by
  induction m with
  | nil => exact .pure g _
  | cons e m ih =>
    obtain ⟨key, v⟩ := e
    simp only [Dehydrate.entries]
    rw [lookup_map (fun f : Field Term => { f with dataset := f.dataset.map (patIn g) })]
    cases hl : lookup key fs with
    | none => exact .fail g _
    | some f =>
      have hf : (∀ p ∈ f.dataset, p.g = none) ∧ P f.value.layout := by
        unfold lookup at hl
        cases hfd : fs.find? (fun e => e.1 == key) with
        | none => rw [hfd] at hl; simp at hl
        | some e =>
          rw [hfd] at hl
          simp at hl
          subst hl
          exact ⟨h e (List.mem_of_find?_eq_some hfd), hP e (List.mem_of_find?_eq_some hfd)⟩
      exact .bind g (.intro g _ _) fun fenv => .bind g (.instDataset g fenv hf.1) fun _ =>
        .bind g (.subValue g hrec gr hf.2 _ _) fun _ => ih

omit hrec in
theorem Moves.requireKeys (ref : Term) (m : List (Value × Value)) (fs : List (Value × Field Term)) :
    Moves g (requireKeys ref m fs)
      (requireKeys ref m (fs.map fun e => (e.1, { e.2 with dataset := e.2.dataset.map (patIn g) }))) := by
  induction fs with
  | nil => exact .pure g _
  | cons e fs ih =>
    simp only [Dehydrate.requireKeys, List.map_cons]
    split
    · exact .fail g _
    · exact ih

theorem Moves.items (env : Env IRes) {item : ItemLayout Term} (h : ∀ p ∈ item.dataset, p.g = none) (hP : P item.value.layout)
    (vs : List Value) :
    Moves g (items rec gr env item vs) (items rec' gr env { item with dataset := item.dataset.map (patIn g) } vs) := by
  induction vs with
  | nil => exact .pure g _
  | cons v vs ih =>
    exact .bind g (.intro g _ _) fun ienv => .bind g (.instDataset g ienv h) fun _ =>
      .bind g (.subValue g hrec gr hP _ _) fun _ => ih

theorem Moves.nodes (env : Env IRes) {node : ItemLayout Term} (h : ∀ p ∈ node.dataset, p.g = none) (hP : P node.value.layout)
    (tail : Pattern Term) (head : IRes)
    (vs : List Value) :
    Moves g (nodes rec gr env node tail head vs)
      (nodes rec' gr env { node with dataset := node.dataset.map (patIn g) } tail head vs) := by
  induction vs generalizing head with
  | nil => exact .pure g _
  | cons v vs ih =>
    refine .bind g ?_ fun next => .bind g (.intro g _ _) fun ienv => .bind g (.instDataset g ienv h) fun _ =>
      .bind g (.subValue g hrec gr hP _ _) fun _ => ih next
    split
    · exact .read g fun _ => rfl
    · exact .newResource g

theorem Moves.sizedItems (env : Env IRes) {is : List (ItemLayout Term)} (h : ∀ x ∈ is, ∀ p ∈ x.dataset, p.g = none)
    (hP : ∀ x ∈ is, P x.value.layout) (vs : List Value) :
    Moves g (sizedItems rec gr env vs is)
      (sizedItems rec' gr env vs (is.map fun x => { x with dataset := x.dataset.map (patIn g) })) := by
  induction is generalizing vs with
  | nil => cases vs with
    | nil => exact .pure g _
    | cons v vs => exact .fail g _
  | cons x is ih =>
    cases vs with
    | nil => exact .fail g _
    | cons v vs =>
      exact .bind g (.intro g _ _) fun ienv => .bind g (.instDataset g ienv (h x (by simp))) fun _ =>
        .bind g (.subValue g hrec gr (hP x (by simp)) _ _) fun _ =>
          ih (fun y hy => h y (by simp [hy])) (fun y hy => hP y (by simp [hy])) vs

theorem Moves.layout (c : DeCtx) (reg : Registry Term) (v : Value) (ref : Term) (ins : List IRes) {l : Layout Term}
    (hp : ∀ p ∈ l.patterns, p.g = none) (hP : ∀ f ∈ l.formats, P f.layout) :
    Moves g (layout c rec v gr ref ins l)
      (layout { c with reg := reg } rec' v gr ref ins (l.mapPatterns (patIn g))) := by
  cases l with
  | never => exact .fail g _
  | always => exact .pure g _
  | unit l =>
    have h0 : ∀ p ∈ l.dataset, p.g = none := hp
    simp only [Dehydrate.layout, Layout.mapPatterns]
    split
    · exact .bind g (.intro g _ _) fun env => .instDataset g env h0
    · exact .fail g _
  | boolean l =>
    have h0 : ∀ p ∈ l.dataset, p.g = none := hp
    simp only [Dehydrate.layout, Layout.mapPatterns]
    split
    · exact .data g _ h0 _
    · exact .fail g _
  | number l =>
    have h0 : ∀ p ∈ l.dataset, p.g = none := hp
    simp only [Dehydrate.layout, Layout.mapPatterns]
    split
    · exact .data g _ h0 _
    · exact .fail g _
  | byteString l =>
    have h0 : ∀ p ∈ l.dataset, p.g = none := hp
    simp only [Dehydrate.layout, Layout.mapPatterns]
    split
    · exact .data g _ h0 _
    · exact .fail g _
  | textString l =>
    have h0 : ∀ p ∈ l.toDataLayout.dataset, p.g = none := hp
    simp only [Dehydrate.layout, Layout.mapPatterns]
    split
    · exact .data g _ h0 _
    · exact .fail g _
  | id l =>
    have h0 : ∀ p ∈ l.dataset, p.g = none := hp
    simp only [Dehydrate.layout, Layout.mapPatterns]
    split
    · exact .ident g c reg _ h0 _
    · exact .fail g _
  | sum l =>
    have h0 : ∀ p ∈ l.dataset, p.g = none := fun p h => hp p (List.mem_append.2 (.inl h))
    have h1 : ∀ v ∈ l.variants, ∀ p ∈ v.dataset, p.g = none := fun v hv p h =>
      hp p (List.mem_append.2 (.inr (List.mem_flatMap.2 ⟨v, hv, h⟩)))
    exact .bind g (.intro g _ _) fun env => .bind g (.instDataset g env h0) fun _ =>
      .variants g hrec gr env v h1 (fun x hx => hP _ (List.mem_map.2 ⟨x, hx, rfl⟩)) none (by simp)
  | product l =>
    have h0 : ∀ p ∈ l.dataset, p.g = none := fun p h => hp p (List.mem_append.2 (.inl h))
    have h1 : ∀ v ∈ l.fields, ∀ p ∈ v.2.dataset, p.g = none := fun v hv p h =>
      hp p (List.mem_append.2 (.inr (List.mem_flatMap.2 ⟨v, hv, h⟩)))
    simp only [Dehydrate.layout, Layout.mapPatterns]
    split
    · exact .bind g (.intro g _ _) fun env => .bind g (.instDataset g env h0) fun _ =>
        .bind g (.entries g hrec gr env h1 (fun x hx => hP _ (List.mem_map.2 ⟨x, hx, rfl⟩)) _) fun _ => .requireKeys g _ _ _
    · exact .fail g _
  | unordered l =>
    have h0 : ∀ p ∈ l.dataset, p.g = none := fun p h => hp p (List.mem_append.2 (.inl h))
    have h1 : ∀ p ∈ l.item.dataset, p.g = none := fun p h => hp p (List.mem_append.2 (.inr h))
    simp only [Dehydrate.layout, Layout.mapPatterns]
    split
    · exact .bind g (.intro g _ _) fun env => .bind g (.instDataset g env h0) fun _ => .items g hrec gr env h1 (hP _ (by simp [Layout.formats])) _
    · exact .fail g _
  | ordered l =>
    have h0 : ∀ p ∈ l.dataset, p.g = none := fun p h => hp p (List.mem_append.2 (.inl h))
    have h1 : ∀ p ∈ l.node.dataset, p.g = none := fun p h => hp p (List.mem_append.2 (.inr h))
    simp only [Dehydrate.layout, Layout.mapPatterns]
    split
    · exact .bind g (.intro g _ _) fun env => .bind g (.instDataset g env h0) fun _ => .bind g (.read g fun _ => rfl) fun _ =>
        .nodes g hrec gr env h1 (hP _ (by simp [Layout.formats])) _ _ _
    · exact .fail g _
  | sized l =>
    have h0 : ∀ p ∈ l.dataset, p.g = none := fun p h => hp p (List.mem_append.2 (.inl h))
    have h1 : ∀ v ∈ l.items, ∀ p ∈ v.dataset, p.g = none := fun v hv p h =>
      hp p (List.mem_append.2 (.inr (List.mem_flatMap.2 ⟨v, hv, h⟩)))
    simp only [Dehydrate.layout, Layout.mapPatterns]
    split
    · exact .bind g (.intro g _ _) fun env => .bind g (.instDataset g env h0) fun _ => .sizedItems g hrec gr env h1 (fun x hx => hP _ (List.mem_map.2 ⟨x, hx, rfl⟩)) _
    · exact .fail g _

omit hrec in
/-- Layouts that name a graph write to it what the layouts without graph write. -/
theorem dehydrateWith_naming (c : DeCtx) (root : Term) (h : NoGraph c.reg root) (n : Nat) (v : Value)
    (gr : Option IRes) (ref : Term) (hr : Reaches c.reg root ref) (ins : List IRes) :
    Moves g (dehydrateWith c n v gr ref ins) (dehydrateWith { c with reg := c.reg.naming g } n v gr ref ins) := by
  induction n generalizing v gr ref ins with
  | zero => exact fun _ h => ⟨rfl, h⟩
  | succ n ih =>
    simp only [dehydrateWith, Registry.naming]
    cases hl : c.reg ref with
    | none => exact .fail g _
    | some l =>
      simp only [Option.map_some, inputCount_mapPatterns]
      split
      · exact .fail g _
      · exact .layout g (P := Reaches c.reg root) ih gr c _ v ref ins (h ref hr l hl).1 fun f hf => .step hr hl hf

end Dehydrate

namespace Dehydrate

variable (g : Term)

/-- The named quad in the graph. -/
def mvTerm (q : Quad Term) : Quad Term := { q with g := some g }

theorem mapQuad_mv (o : DeOptions) {q : Quad IRes} (h : q.g = none) (st : Naming) :
    mapQuad o (mv g q) st = (mvTerm g (mapQuad o q st).1, (mapQuad o q st).2) ∧ (mapQuad o q st).1.g = none := by
  unfold mapQuad
  simp only [mv, h, mapResource, mvTerm, and_self]

theorem mapQuads_mv (o : DeOptions) {qs : List (Quad IRes)} (h : ∀ q ∈ qs, q.g = none) (st : Naming) :
    mapQuads o (qs.map (mv g)) st = ((mapQuads o qs st).1.map (mvTerm g), (mapQuads o qs st).2) ∧
      ∀ q ∈ (mapQuads o qs st).1, q.g = none := by
  induction qs generalizing st with
  | nil => exact ⟨rfl, by simp [mapQuads]⟩
  | cons q qs ih =>
    obtain ⟨e1, e2⟩ := mapQuad_mv g o (h q (by simp)) st
    obtain ⟨i1, i2⟩ := ih (fun x hx => h x (by simp [hx])) (mapQuad o q st).2
    simp only [mapQuads, List.map_cons, e1, i1]
    refine ⟨trivial, ?_⟩
    intro x hx
    rcases List.mem_cons.1 hx with rfl | hx
    · exact e2
    · exact i2 x hx

theorem mvTerm_inj {q q' : Quad Term} (h : q.g = none) (h' : q'.g = none) (e : mvTerm g q = mvTerm g q') : q = q' := by
  obtain ⟨a, b, c, d⟩ := q
  obtain ⟨a', b', c', d'⟩ := q'
  simp only at h h'
  subst h h'
  simpa [mvTerm] using e

theorem toSet_mv {qs : List (Quad Term)} (h : ∀ q ∈ qs, q.g = none) : toSet (qs.map (mvTerm g)) = (toSet qs).map (mvTerm g) := by
  unfold toSet
  induction qs with
  | nil => rfl
  | cons q qs ih =>
    have ih := ih fun x hx => h x (by simp [hx])
    have e : mvTerm g q ∈ qs.map (mvTerm g) ↔ q ∈ qs := by
      constructor
      · intro hm
        obtain ⟨q', h1, h2⟩ := List.mem_map.1 hm
        exact mvTerm_inj g (h q' (by simp [h1])) (h q (by simp)) h2 ▸ h1
      · exact fun hm => List.mem_map.2 ⟨q, hm, rfl⟩
    by_cases hm : q ∈ qs
    · rw [List.map_cons, List.dedup_cons_of_mem (e.2 hm), List.dedup_cons_of_mem hm, ih]
    · rw [List.map_cons, List.dedup_cons_of_notMem (fun x => hm (e.1 x)), List.dedup_cons_of_notMem hm, List.map_cons, ih]

/-- Dehydration with layouts that name a graph, from dehydration with the same layouts without it. -/
theorem dehydrate_naming (c : DeCtx) (ref : Term) (h : NoGraph c.reg ref) (n : Nat) (v : Value) (o : DeOptions) (order : List (Quad IRes) → List (Quad IRes))
    (hord : ∀ l, (∀ q ∈ l, q.g = none) → o.order (l.map (mv g)) = (order l).map (mv g) ∧ ∀ q ∈ order l, q.g = none) :
    dehydrate { c with reg := c.reg.naming g } n v ref o =
      (dehydrate c n v ref { o with order := order }).map fun r => (r.1.putIn g, r.2) := by
  obtain ⟨e1, e2⟩ := dehydrateWith_naming g c ref h n v none ref (.refl _)
    ((List.range (((c.reg ref).bind Layout.inputCount).getD (o.inputCount.getD 1))).map .input) ⟨[], [], 0⟩ (by simp [AllDefault])
  unfold dehydrate
  simp only [Registry.naming]
  cases hl : c.reg ref with
  | none => rfl
  | some l =>
    simp only [Option.map_some, inputCount_mapPatterns, hl, Option.bind_some] at e1 e2 ⊢
    change dehydrateWith { c with reg := c.reg.naming g } n v none ref _ ⟨[], [], 0⟩ = _ at e1
    change (match dehydrateWith { c with reg := c.reg.naming g } n v none ref _ ⟨[], [], 0⟩ with
      | (.ok _, s) => _
      | (.err e, _) => _
      | (.panic, _) => _
      | (.fuel, _) => _) = _
    rw [e1]
    rcases hr : dehydrateWith c n v none ref
      ((List.range (l.inputCount.getD (o.inputCount.getD 1))).map .input) ⟨[], [], 0⟩ with ⟨x, s⟩
    rw [hr] at e2
    simp only at e2
    cases x with
    | ok _ =>
      simp only [mvState]
      by_cases ha : ambiguous s.terms = true
      · simp only [ha, if_true]
        rfl
      · obtain ⟨o1, o2⟩ := hord s.out e2
        simp only [ha, if_false, Bool.false_eq_true]
        rw [o1]
        have e : ∀ (qs : List (Quad IRes)) (st : Naming), mapQuads o qs st = mapQuads { o with order := order } qs st := by
          intro qs
          induction qs with
          | nil => exact fun _ => rfl
          | cons q qs ih => intro st; simp only [mapQuads, ih]; rfl
        have e' : ∀ (is : List Nat) (st : Naming), mapInputs o is st = mapInputs { o with order := order } is st := by
          intro is
          induction is with
          | nil => exact fun _ => rfl
          | cons i is ih => intro st; simp only [mapInputs, ih]; rfl
        obtain ⟨m1, m2⟩ := mapQuads_mv g o o2 (initialMap s.terms, 0)
        rw [m1]
        simp only [Out.map, e, e'] at m2 ⊢
        rw [toSet_mv g m2]
        rfl
    | err e => rfl
    | panic => rfl
    | fuel => rfl

end Dehydrate

end Verif
