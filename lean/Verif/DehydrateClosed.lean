import Verif.DehydrateLemmas

/-! # Dehydration with closed layouts: nothing but the recursive calls can fail -/

set_option linter.unusedSectionVars false
set_option linter.unusedSimpArgs false

namespace Verif.Dehydrate

/-- The resource a pattern stands for, given the resources in scope. -/
def patInst (ρ : List IRes) : Pattern Term → IRes
  | .res t => .term t
  | .var x => ρ.getD x (.input 0)

/-- The quad a quad pattern stands for. -/
def quadInst (ρ : List IRes) (q : QuadPat Term) : Quad IRes :=
  ⟨patInst ρ q.s, patInst ρ q.p, patInst ρ q.o, q.g.map (patInst ρ)⟩

/-- The graph of a sub-value. -/
def graphInst (ρ : List IRes) (graph : Option IRes) : Option (Option (Pattern Term)) → Option IRes
  | none => graph
  | some none => none
  | some (some p) => some (patInst ρ p)

/-- The state with the quads of a pattern added. -/
def emit (ρ : List IRes) (qs : List (QuadPat Term)) (s : DeState) : DeState :=
  { s with out := (qs.map (quadInst ρ)).foldl insertQuad s.out }

/-- The state with `k` more resources. -/
def alloc (k : Nat) (s : DeState) : DeState := { s with fresh := s.fresh + k }

@[simp] theorem emit_fresh (ρ : List IRes) (qs : List (QuadPat Term)) (s : DeState) : (emit ρ qs s).fresh = s.fresh := rfl
@[simp] theorem emit_terms (ρ : List IRes) (qs : List (QuadPat Term)) (s : DeState) : (emit ρ qs s).terms = s.terms := rfl
@[simp] theorem alloc_fresh (k : Nat) (s : DeState) : (alloc k s).fresh = s.fresh + k := rfl
@[simp] theorem alloc_terms (k : Nat) (s : DeState) : (alloc k s).terms = s.terms := rfl
@[simp] theorem alloc_out (k : Nat) (s : DeState) : (alloc k s).out = s.out := rfl

theorem mem_emit {ρ : List IRes} {qs : List (QuadPat Term)} {s : DeState} {q : Quad IRes} :
    q ∈ (emit ρ qs s).out ↔ q ∈ s.out ∨ ∃ p ∈ qs, quadInst ρ p = q := by
  simp only [emit, mem_foldl_insertQuad, List.mem_map]

theorem instPattern_eq {env : Env IRes} {p : Pattern Term} (h : p.Below env.flat.length) :
    instPattern env p = .ok (patInst env.flat p) := by
  cases p with
  | res t => rfl
  | var x =>
    have hx : x < env.flat.length := h x (by simp [Pattern.vars])
    simp only [instPattern, Env.get_eq, patInst, List.getElem?_eq_getElem hx, List.getD_eq_getElem?_getD,
      Option.getD_some]

theorem instPatterns_eq {env : Env IRes} {ps : List (Pattern Term)} (h : ∀ p ∈ ps, p.Below env.flat.length) :
    instPatterns env ps = .ok (ps.map (patInst env.flat)) := by
  unfold instPatterns
  induction ps with
  | nil => rfl
  | cons p ps ih =>
    rw [List.forall_mem_cons] at h
    rw [Out.mapM', instPattern_eq h.1, Out.bind_ok, ih h.2]
    rfl

theorem PatsBelow.cons {k : Nat} {q : QuadPat Term} {qs : List (QuadPat Term)} :
    PatsBelow k (q :: qs) ↔ (q.s.Below k ∧ q.p.Below k ∧ q.o.Below k ∧ ∀ g, q.g = some g → g.Below k) ∧ PatsBelow k qs := by
  unfold PatsBelow Pattern.Below
  simp only [patsVars, List.flatMap_cons, List.mem_append, QuadPat.vars]
  constructor
  · intro h
    refine ⟨⟨fun x hx => h x ?_, fun x hx => h x ?_, fun x hx => h x ?_, fun g hg x hx => h x ?_⟩, fun x hx => h x ?_⟩
    · simp [hx]
    · simp [hx]
    · simp [hx]
    · simp [hg, hx]
    · simp only [List.mem_flatMap] at hx ⊢; simp [hx]
  · rintro ⟨⟨h1, h2, h3, h4⟩, h5⟩ x ((hx | hx | hx | hx) | hx)
    · exact h1 x hx
    · exact h2 x hx
    · exact h3 x hx
    · cases hg : q.g with
      | none => rw [hg] at hx; simp at hx
      | some g => rw [hg] at hx; exact h4 g hg x hx
    · exact h5 x hx

theorem instQuad_eq {env : Env IRes} {q : QuadPat Term} (h : q.s.Below env.flat.length ∧ q.p.Below env.flat.length ∧
    q.o.Below env.flat.length ∧ ∀ g, q.g = some g → g.Below env.flat.length) :
    instQuad env q = .ok (quadInst env.flat q) := by
  obtain ⟨h1, h2, h3, h4⟩ := h
  unfold instQuad
  rw [instPattern_eq h1, Out.bind_ok, instPattern_eq h2, Out.bind_ok, instPattern_eq h3, Out.bind_ok]
  cases hg : q.g with
  | none => simp only [quadInst, hg, Option.map_none]
  | some g => simp only [instPattern_eq (h4 g hg), Out.bind_ok, quadInst, hg, Option.map_some]

theorem instLocal_eq {env : Env IRes} {qs : List (QuadPat Term)} (h : PatsBelow env.flat.length qs) :
    instLocal env qs = .ok (qs.map (quadInst env.flat)) := by
  unfold instLocal
  induction qs with
  | nil => rfl
  | cons p ps ih =>
    rw [PatsBelow.cons] at h
    rw [Out.mapM', instQuad_eq h.1, Out.bind_ok, ih h.2]
    rfl

theorem instDataset_eq {env : Env IRes} {qs : List (QuadPat Term)} (h : PatsBelow env.flat.length qs) (s : DeState) :
    instDataset env qs s = (.ok (), emit env.flat qs s) := by
  induction qs generalizing s with
  | nil => rfl
  | cons p ps ih =>
    rw [PatsBelow.cons] at h
    unfold instDataset
    rw [DeM.bind_ok (s' := s) (a := quadInst env.flat p) (by simp [DeM.read, instQuad_eq h.1])]
    exact ih h.2 _

theorem instDataset_bind {β : Type} {env : Env IRes} {qs : List (QuadPat Term)} (h : PatsBelow env.flat.length qs)
    (f : Unit → DeM β) (s : DeState) : (instDataset env qs).bind f s = f () (emit env.flat qs s) :=
  DeM.bind_ok (instDataset_eq h s)

theorem readPattern_bind {β : Type} {env : Env IRes} {p : Pattern Term} (h : p.Below env.flat.length)
    (f : IRes → DeM β) (s : DeState) :
    (DeM.read fun _ => instPattern env p).bind f s = f (patInst env.flat p) s :=
  DeM.bind_ok (by simp [DeM.read, instPattern_eq h])

theorem subValue_eq {rec : Rec} {graph : Option IRes} {fmt : ValueFormat Term} {env : Env IRes} {v : Value}
    (h : fmt.Below env.flat.length) :
    subValue rec graph fmt env v =
      rec v (graphInst env.flat graph fmt.graph) fmt.layout (fmt.input.map (patInst env.flat)) := by
  funext s
  unfold subValue
  rw [DeM.bind_ok (s' := s) (a := fmt.input.map (patInst env.flat)) (by simp [DeM.read, instPatterns_eq h.1])]
  refine DeM.bind_ok (s' := s) (a := graphInst env.flat graph fmt.graph) ?_
  simp only [DeM.read, Prod.mk.injEq, and_true]
  cases hg : fmt.graph with
  | none => rfl
  | some g =>
    cases g with
    | none => rfl
    | some p => simp only [instPattern_eq (h.2 p hg), Out.map, graphInst]

/-- The recursive call made for a sub-value, with the resources `ρ` in scope. -/
def call (rec : Rec) (graph : Option IRes) (fmt : ValueFormat Term) (ρ : List IRes) (v : Value) : DeM Unit :=
  rec v (graphInst ρ graph fmt.graph) fmt.layout (fmt.input.map (patInst ρ))

theorem flat_child (env : Env IRes) (rs : List IRes) : (Env.child env rs).flat = env.flat ++ rs := rfl

theorem length_flat_child (env : Env IRes) (start k : Nat) :
    (Env.child env (freshList start k)).flat.length = env.flat.length + k := by
  rw [flat_child, List.length_append, length_freshList]

/-- The resources in scope after introducing `k` variables. -/
def scope (ρ : List IRes) (k : Nat) (s : DeState) : List IRes := ρ ++ freshList s.fresh k

theorem length_scope (ρ : List IRes) (k : Nat) (s : DeState) : (scope ρ k s).length = ρ.length + k := by
  rw [scope, List.length_append, length_freshList]

theorem intro_emit_call {β : Type} {rec : Rec} {graph : Option IRes} {env : Env IRes} {k : Nat}
    {qs : List (QuadPat Term)} {fmt : ValueFormat Term} {v : Value} (h1 : PatsBelow (env.flat.length + k) qs)
    (h2 : fmt.Below (env.flat.length + k)) (f : Unit → DeM β) (s : DeState) :
    ((intro env k).bind fun e => (instDataset e qs).bind fun _ => (subValue rec graph fmt e v).bind f) s =
      (call rec graph fmt (scope env.flat k s) v).bind f (emit (scope env.flat k s) qs (alloc k s)) := by
  rw [intro_bind, instDataset_bind (by rw [length_flat_child]; exact h1),
    subValue_eq (by rw [length_flat_child]; exact h2)]
  rfl

theorem intro_emit {β : Type} {env : Env IRes} {k : Nat} {qs : List (QuadPat Term)}
    (h1 : PatsBelow (env.flat.length + k) qs) (f : Env IRes → DeM β) (s : DeState) :
    ((intro env k).bind fun e => (instDataset e qs).bind fun _ => f e) s =
      f (.child env (freshList s.fresh k)) (emit (scope env.flat k s) qs (alloc k s)) := by
  rw [intro_bind, instDataset_bind (by rw [length_flat_child]; exact h1)]
  rfl

theorem entries_cons {rec : Rec} {graph : Option IRes} {env : Env IRes} {fields : List (Value × Field Term)}
    {key v : Value} {m : List (Value × Value)} {f : Field Term} (hl : lookup key fields = some f)
    (h1 : PatsBelow (env.flat.length + f.intro) f.dataset) (h2 : f.value.Below (env.flat.length + f.intro))
    (s : DeState) :
    entries rec graph env fields ((key, v) :: m) s =
      (call rec graph f.value (scope env.flat f.intro s) v).bind (fun _ => entries rec graph env fields m)
        (emit (scope env.flat f.intro s) f.dataset (alloc f.intro s)) := by
  conv => lhs; unfold entries
  simp only [hl]
  exact intro_emit_call h1 h2 _ s

theorem items_cons {rec : Rec} {graph : Option IRes} {env : Env IRes} {item : ItemLayout Term} {v : Value}
    {vs : List Value} (h : item.Closed (env.flat.length + item.intro)) (s : DeState) :
    items rec graph env item (v :: vs) s =
      (call rec graph item.value (scope env.flat item.intro s) v).bind (fun _ => items rec graph env item vs)
        (emit (scope env.flat item.intro s) item.dataset (alloc item.intro s)) := by
  conv => lhs; unfold items
  exact intro_emit_call h.1 h.2 _ s

theorem sizedItems_cons {rec : Rec} {graph : Option IRes} {env : Env IRes} {item : ItemLayout Term} {v : Value}
    {vs : List Value} {is : List (ItemLayout Term)} (h : item.Closed (env.flat.length + item.intro)) (s : DeState) :
    sizedItems rec graph env (v :: vs) (item :: is) s =
      (call rec graph item.value (scope env.flat item.intro s) v).bind (fun _ => sizedItems rec graph env vs is)
        (emit (scope env.flat item.intro s) item.dataset (alloc item.intro s)) := by
  conv => lhs; unfold sizedItems
  exact intro_emit_call h.1 h.2 _ s

/-- The node following the one for the first item. -/
def nextNode (ρ : List IRes) (tail : Pattern Term) (rest : List Value) (s : DeState) : IRes :=
  if rest.isEmpty then patInst ρ tail else .anon s.fresh

/-- The state after creating the following node. -/
def allocNext (rest : List Value) (s : DeState) : DeState := if rest.isEmpty then s else alloc 1 s

theorem nodes_cons {rec : Rec} {graph : Option IRes} {env : Env IRes} {node : ItemLayout Term} {tail : Pattern Term}
    {head : IRes} {v : Value} {vs : List Value} (ht : tail.Below env.flat.length)
    (h : node.Closed (env.flat.length + 2 + node.intro)) (s : DeState) :
    nodes rec graph env node tail head (v :: vs) s =
      (call rec graph node.value
          (scope (env.flat ++ [head, nextNode env.flat tail vs s]) node.intro (allocNext vs s)) v).bind
        (fun _ => nodes rec graph env node tail (nextNode env.flat tail vs s) vs)
        (emit (scope (env.flat ++ [head, nextNode env.flat tail vs s]) node.intro (allocNext vs s)) node.dataset
          (alloc node.intro (allocNext vs s))) := by
  conv => lhs; unfold nodes
  have : (if vs.isEmpty then DeM.read fun _ => instPattern env tail else newResource) s =
      (.ok (nextNode env.flat tail vs s), allocNext vs s) := by
    unfold nextNode allocNext
    split
    · simp [DeM.read, instPattern_eq ht]
    · rfl
  rw [DeM.bind_ok this]
  have hl : (env.bind [head, nextNode env.flat tail vs s]).flat.length = env.flat.length + 2 := by
    simp [Env.bind, Env.flat]
  have := intro_emit_call (rec := rec) (graph := graph) (env := env.bind [head, nextNode env.flat tail vs s])
    (k := node.intro) (qs := node.dataset) (fmt := node.value) (v := v) (by rw [hl]; exact h.1) (by rw [hl]; exact h.2)
    (fun _ => nodes rec graph env node tail (nextNode env.flat tail vs s) vs) (allocNext vs s)
  exact this

theorem variants_cons {rec : Rec} {graph : Option IRes} {env : Env IRes} {v : Value} {x : Variant Term}
    {vs : List (Variant Term)} {sel : Option (List (Quad IRes))}
    (h1 : PatsBelow (env.flat.length + x.intro) x.dataset) (h2 : x.value.Below (env.flat.length + x.intro))
    (s : DeState) :
    variants rec graph env v (x :: vs) sel s =
      match call rec graph x.value (scope env.flat x.intro s) v (alloc x.intro s) with
      | (.ok _, s') =>
        match sel with
        | some _ => (.err .dataAmbiguity, s')
        | none => variants rec graph env v vs (some (x.dataset.map (quadInst (scope env.flat x.intro s)))) s'
      | (.err _, s') => variants rec graph env v vs sel s'
      | (.panic, s') => (.panic, s')
      | (.fuel, s') => (.fuel, s') := by
  conv => lhs; unfold variants
  rw [intro_bind, DeM.bind_ok (s' := { s with fresh := s.fresh + x.intro })
    (a := x.dataset.map (quadInst (scope env.flat x.intro s)))]
  · rw [subValue_eq (by rw [length_flat_child]; exact h2)]
    rfl
  · simp only [DeM.read, Prod.mk.injEq, and_true]
    rw [instLocal_eq (by rw [length_flat_child]; exact h1)]
    rfl

theorem data_eq {inputs : List IRes} {l : DataLayout Term} {lit : List String → Out DeError RdfLit}
    (h1 : PatsBelow (inputs.length + l.intro) l.dataset) (h2 : l.resource.Below (inputs.length + l.intro))
    (s : DeState) :
    data inputs l lit s =
      ((DeM.read fun s => lit (irisOf s (.term l.datatype))).bind fun lit =>
        assign (patInst (scope inputs l.intro s) l.resource) (.literal lit))
      (emit (scope inputs l.intro s) l.dataset (alloc l.intro s)) := by
  unfold data
  rw [intro_emit (env := .root inputs) h1, readPattern_bind]
  · rfl
  · rw [length_flat_child]; exact h2

theorem ident_eq {c : DeCtx} {inputs : List IRes} {l : IdLayout Term} {text : String}
    (h1 : PatsBelow (inputs.length + l.intro) l.dataset) (h2 : l.resource.Below (inputs.length + l.intro))
    (s : DeState) :
    ident c inputs l text s =
      (if c.isIri text then assign (patInst (scope inputs l.intro s) l.resource) (.iri text)
        else .fail .incompatibleLayout)
      (emit (scope inputs l.intro s) l.dataset (alloc l.intro s)) := by
  unfold ident
  rw [intro_emit (env := .root inputs) h1, readPattern_bind]
  · rfl
  · rw [length_flat_child]; exact h2

end Verif.Dehydrate
