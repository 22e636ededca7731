import Verif.DehydrateSpec
import Verif.DehydrateOut

/-! # Where the emitted quads come from; the current graph; variants that fail at the head -/

set_option linter.unusedSectionVars false
set_option linter.unusedSimpArgs false

namespace Verif.Dehydrate

/-! ## Provenance -/

/-- Every quad added between `s` and `s'` is an instance of a pattern in `T`. -/
def From (T : QuadPat Term → Prop) (s s' : DeState) : Prop :=
  ∀ q ∈ s'.out, q ∈ s.out ∨ ∃ p ρ, T p ∧ QuadPat.Instance ρ p q

variable {T : QuadPat Term → Prop}

theorem From.refl (s : DeState) : From T s s := fun _ h => .inl h

theorem From.trans {a b c : DeState} (h1 : From T a b) (h2 : From T b c) : From T a c := by
  intro q hq
  rcases h2 q hq with h | h
  · exact h1 q h
  · exact .inr h

theorem from_bind {α β : Type} {x : DeM α} {f : α → DeM β} (hx : x.Pres (From T)) (hf : ∀ a, (f a).Pres (From T)) :
    (x.bind f).Pres (From T) := DeM.Pres.bind (P := From T) (fun _ _ _ h1 h2 => From.trans h1 h2) hx hf

theorem from_id {α : Type} {x : DeM α} (h : ∀ s, (x s).2.out = s.out) : x.Pres (From T) := by
  intro s q hq
  rw [h s] at hq
  exact .inl hq

theorem from_read {α : Type} (f : DeState → Out DeError α) : (DeM.read f).Pres (From T) := from_id fun _ => rfl

theorem from_fail {α : Type} (e : DeError) : (DeM.fail e : DeM α).Pres (From T) := from_id fun _ => rfl

theorem from_pure {α : Type} (a : α) : (DeM.pure a).Pres (From T) := from_id fun _ => rfl

theorem from_intro (env : Env IRes) (k : Nat) : (intro env k).Pres (From T) :=
  from_id fun s => by rw [intro_eq]

theorem from_assign (r : IRes) (t : Term) : (assign r t).Pres (From T) := from_id fun _ => rfl

theorem instQuad_instance {env : Env IRes} {p : QuadPat Term} {q : Quad IRes} (h : instQuad env p = .ok q) :
    QuadPat.Instance (fun x => env.flat[x]?) p q := by
  have key : ∀ (p : Pattern Term) (r : IRes), instPattern env p = .ok r → p.Instance (fun x => env.flat[x]?) r := by
    intro p r h
    cases p with
    | res t => simp only [instPattern, Out.ok.injEq] at h; exact h.symm
    | var x =>
      simp only [instPattern, Env.get_eq] at h
      cases hx : env.flat[x]? with
      | none => rw [hx] at h; simp at h
      | some r' => rw [hx] at h; simp only [Out.ok.injEq] at h; simp [Pattern.Instance, hx, h]
  simp only [instQuad, Out.bind_eq_ok] at h
  obtain ⟨s, hs, p', hp, o, ho, h⟩ := h
  cases hg : p.g with
  | none =>
    simp only [hg, Out.ok.injEq] at h
    subst h
    exact ⟨key _ _ hs, key _ _ hp, key _ _ ho, by simp [hg]⟩
  | some g =>
    simp only [hg, Out.bind_eq_ok] at h
    obtain ⟨g', hg', h⟩ := h
    simp only [Out.ok.injEq] at h
    subst h
    refine ⟨key _ _ hs, key _ _ hp, key _ _ ho, ?_⟩
    simp only [hg]
    exact key _ _ hg'

theorem from_instDataset (env : Env IRes) (qs : List (QuadPat Term)) (h : ∀ p ∈ qs, T p) :
    (instDataset env qs).Pres (From T) := by
  induction qs with
  | nil => exact from_pure _
  | cons p qs ih =>
    rw [List.forall_mem_cons] at h
    intro s
    unfold instDataset DeM.bind DeM.read
    cases hq : instQuad env p with
    | ok q =>
      refine From.trans ?_ (ih h.2 { s with out := insertQuad s.out q })
      intro q' hq'
      rcases mem_insertQuad.1 hq' with h' | rfl
      · exact .inl h'
      · exact .inr ⟨p, _, h.1, instQuad_instance hq⟩
    | err _ => exact .refl _
    | panic => exact .refl _
    | fuel => exact .refl _

theorem from_subValue {rec : Rec} (hrec : ∀ v g ref ins, (rec v g ref ins).Pres (From T)) (graph : Option IRes)
    (fmt : ValueFormat Term) (env : Env IRes) (v : Value) : (subValue rec graph fmt env v).Pres (From T) :=
  from_bind (from_read _) fun _ => from_bind (from_read _) fun _ => hrec _ _ _ _

theorem from_variants {rec : Rec} (hrec : ∀ v g ref ins, (rec v g ref ins).Pres (From T)) (graph : Option IRes)
    (env : Env IRes) (v : Value) (vs : List (Variant Term)) (hv : ∀ x ∈ vs, ∀ p ∈ x.dataset, T p)
    (sel : Option (List (Quad IRes))) (hsel : ∀ qs, sel = some qs → ∀ q ∈ qs, ∃ p ρ, T p ∧ QuadPat.Instance ρ p q) :
    (variants rec graph env v vs sel).Pres (From T) := by
  induction vs generalizing sel with
  | nil =>
    cases sel with
    | none => exact from_fail _
    | some quads =>
      intro s q hq
      rcases mem_foldl_insertQuad.1 hq with h | h
      · exact .inl h
      · exact .inr (hsel quads rfl q h)
  | cons x vs ih =>
    rw [List.forall_mem_cons] at hv
    refine from_bind (from_intro _ _) fun venv s => ?_
    unfold DeM.bind DeM.read
    cases hq : instLocal venv x.dataset with
    | ok quads =>
      have hquads : ∀ q ∈ quads, ∃ p ρ, T p ∧ QuadPat.Instance ρ p q := by
        have hv := hv.1
        rw [instLocal, Out.mapM'_eq_ok] at hq
        clear hsel ih
        generalize x.dataset = ds at hq hv
        induction hq with
        | nil => simp
        | cons h _ ih =>
          rw [List.forall_mem_cons] at hv
          intro q hq
          rcases List.mem_cons.1 hq with rfl | hq
          · exact ⟨_, _, hv.1, instQuad_instance h⟩
          · exact ih hv.2 q hq
      have h1 := from_subValue hrec graph x.value venv v s
      simp only
      rcases h : subValue rec graph x.value venv v s with ⟨a | e | _ | _, s'⟩ <;> rw [h] at h1
      · cases sel with
        | some _ => exact h1
        | none => exact h1.trans (ih hv.2 (some quads) (by rintro qs ⟨⟩; exact hquads) s')
      · exact h1.trans (ih hv.2 sel hsel s')
      · exact h1
      · exact h1
    | err _ => exact .refl _
    | panic => exact .refl _
    | fuel => exact .refl _

theorem from_entries {rec : Rec} (hrec : ∀ v g ref ins, (rec v g ref ins).Pres (From T)) (graph : Option IRes)
    (env : Env IRes) (fields : List (Value × Field Term)) (hf : ∀ e ∈ fields, ∀ p ∈ e.2.dataset, T p)
    (m : List (Value × Value)) : (entries rec graph env fields m).Pres (From T) := by
  induction m with
  | nil => exact from_pure _
  | cons e m ih =>
    obtain ⟨key, v⟩ := e
    unfold entries
    split
    · rename_i f hl
      exact from_bind (from_intro _ _) fun _ => from_bind (from_instDataset _ _ (hf _ (mem_of_lookup hl))) fun _ =>
        from_bind (from_subValue hrec _ _ _ _) fun _ => ih
    · exact from_fail _

theorem from_requireKeys (ref : Term) (m : List (Value × Value)) (fields : List (Value × Field Term)) :
    (requireKeys ref m fields).Pres (From T) := by
  induction fields with
  | nil => exact from_pure _
  | cons e fs ih =>
    obtain ⟨key, field⟩ := e
    unfold requireKeys
    split
    · exact from_fail _
    · exact ih

theorem from_items {rec : Rec} (hrec : ∀ v g ref ins, (rec v g ref ins).Pres (From T)) (graph : Option IRes)
    (env : Env IRes) (item : ItemLayout Term) (hi : ∀ p ∈ item.dataset, T p) (vs : List Value) :
    (items rec graph env item vs).Pres (From T) := by
  induction vs with
  | nil => exact from_pure _
  | cons v vs ih =>
    exact from_bind (from_intro _ _) fun _ => from_bind (from_instDataset _ _ hi) fun _ =>
      from_bind (from_subValue hrec _ _ _ _) fun _ => ih

theorem from_nodes {rec : Rec} (hrec : ∀ v g ref ins, (rec v g ref ins).Pres (From T)) (graph : Option IRes)
    (env : Env IRes) (node : ItemLayout Term) (hi : ∀ p ∈ node.dataset, T p) (tail : Pattern Term) (head : IRes)
    (vs : List Value) : (nodes rec graph env node tail head vs).Pres (From T) := by
  induction vs generalizing head with
  | nil => exact from_pure _
  | cons v vs ih =>
    refine from_bind ?_ fun next => from_bind (from_intro _ _) fun _ =>
      from_bind (from_instDataset _ _ hi) fun _ =>
      from_bind (from_subValue hrec _ _ _ _) fun _ => ih next
    split
    · exact from_read _
    · exact from_id fun _ => rfl

theorem from_sizedItems {rec : Rec} (hrec : ∀ v g ref ins, (rec v g ref ins).Pres (From T)) (graph : Option IRes)
    (env : Env IRes) (vs : List Value) (is : List (ItemLayout Term)) (hi : ∀ i ∈ is, ∀ p ∈ i.dataset, T p) :
    (sizedItems rec graph env vs is).Pres (From T) := by
  induction vs generalizing is with
  | nil =>
    cases is with
    | nil => exact from_pure _
    | cons _ _ => exact from_fail _
  | cons v vs ih =>
    cases is with
    | nil => exact from_fail _
    | cons i is =>
      rw [List.forall_mem_cons] at hi
      exact from_bind (from_intro _ _) fun _ => from_bind (from_instDataset _ _ hi.1) fun _ =>
        from_bind (from_subValue hrec _ _ _ _) fun _ => ih is hi.2

theorem from_data (inputs : List IRes) (l : DataLayout Term) (hl : ∀ p ∈ l.dataset, T p)
    (lit : List String → Out DeError RdfLit) : (data inputs l lit).Pres (From T) :=
  from_bind (from_intro _ _) fun _ => from_bind (from_instDataset _ _ hl) fun _ =>
    from_bind (from_read _) fun _ => from_bind (from_read _) fun _ => from_assign _ _

theorem from_layout (c : DeCtx) {rec : Rec} (hrec : ∀ v g ref ins, (rec v g ref ins).Pres (From T)) (v : Value)
    (graph : Option IRes) (ref : Term) (inputs : List IRes) (l : Layout Term) (hl : ∀ p ∈ l.patterns, T p) :
    (layout c rec v graph ref inputs l).Pres (From T) := by
  cases l with
  | never => exact from_fail _
  | always => exact from_pure _
  | unit l =>
    simp only [layout]
    split
    · exact from_bind (from_intro _ _) fun _ => from_instDataset _ _ hl
    · exact from_fail _
  | boolean l =>
    simp only [layout]
    split
    · exact from_data _ _ hl _
    · exact from_fail _
  | number l =>
    simp only [layout]
    split
    · exact from_data _ _ hl _
    · exact from_fail _
  | byteString l =>
    simp only [layout]
    split
    · exact from_data _ _ hl _
    · exact from_fail _
  | textString l =>
    simp only [layout]
    split
    · exact from_data _ _ hl _
    · exact from_fail _
  | id l =>
    simp only [layout]
    split
    · refine from_bind (from_intro _ _) fun _ => from_bind (from_instDataset _ _ hl) fun _ =>
        from_bind (from_read _) fun _ => ?_
      split
      · exact from_assign _ _
      · exact from_fail _
    · exact from_fail _
  | sum l =>
    simp only [Layout.patterns, List.forall_mem_append, List.mem_flatMap] at hl
    exact from_bind (from_intro _ _) fun _ => from_bind (from_instDataset _ _ hl.1) fun _ =>
      from_variants hrec _ _ _ _ (fun x hx p hp => hl.2 p ⟨x, hx, hp⟩) _ (by simp)
  | product l =>
    simp only [Layout.patterns, List.forall_mem_append, List.mem_flatMap] at hl
    simp only [layout]
    split
    · exact from_bind (from_intro _ _) fun _ => from_bind (from_instDataset _ _ hl.1) fun _ =>
        from_bind (from_entries hrec _ _ _ (fun x hx p hp => hl.2 p ⟨x, hx, hp⟩) _) fun _ => from_requireKeys _ _ _
    · exact from_fail _
  | unordered l =>
    simp only [Layout.patterns, List.forall_mem_append] at hl
    simp only [layout]
    split
    · exact from_bind (from_intro _ _) fun _ => from_bind (from_instDataset _ _ hl.1) fun _ =>
        from_items hrec _ _ _ hl.2 _
    · exact from_fail _
  | ordered l =>
    simp only [Layout.patterns, List.forall_mem_append] at hl
    simp only [layout]
    split
    · exact from_bind (from_intro _ _) fun _ => from_bind (from_instDataset _ _ hl.1) fun _ =>
        from_bind (from_read _) fun _ => from_nodes hrec _ _ _ hl.2 _ _ _
    · exact from_fail _
  | sized l =>
    simp only [Layout.patterns, List.forall_mem_append, List.mem_flatMap] at hl
    simp only [layout]
    split
    · exact from_bind (from_intro _ _) fun _ => from_bind (from_instDataset _ _ hl.1) fun _ =>
        from_sizedItems hrec _ _ _ _ (fun x hx p hp => hl.2 p ⟨x, hx, hp⟩)
    · exact from_fail _

/-- Every emitted quad is an instance of a pattern of a layout of the registry. -/
theorem from_dehydrateWith (c : DeCtx) (n : Nat) (v : Value) (graph : Option IRes) (ref : Term)
    (inputs : List IRes) :
    (dehydrateWith c n v graph ref inputs).Pres
      (From fun p => ∃ ref l, c.reg ref = some l ∧ p ∈ l.patterns) := by
  induction n generalizing v graph ref inputs with
  | zero => exact from_id fun _ => rfl
  | succ n ih =>
    unfold dehydrateWith
    split
    · exact from_fail _
    · rename_i l hl
      split
      · exact from_fail _
      · exact from_layout c ih _ _ _ _ _ fun p hp => ⟨_, l, hl, hp⟩

/-! ## The current graph is ignored -/

/-- The recursive call does not look at the graph. -/
def IgnoresGraph (rec : Rec) : Prop := ∀ v g g' ref ins, rec v g ref ins = rec v g' ref ins

theorem subValue_graph {rec : Rec} (hrec : IgnoresGraph rec) (g g' : Option IRes) (fmt : ValueFormat Term)
    (env : Env IRes) (v : Value) : subValue rec g fmt env v = subValue rec g' fmt env v := by
  unfold subValue
  congr 1
  funext ins
  cases hf : fmt.graph with
  | none => funext s; exact congrFun (hrec _ _ _ _ _) s
  | some x => cases x <;> rfl

theorem layout_graph (c : DeCtx) {rec : Rec} (hrec : IgnoresGraph rec) (v : Value) (g g' : Option IRes) (ref : Term)
    (inputs : List IRes) (l : Layout Term) : layout c rec v g ref inputs l = layout c rec v g' ref inputs l := by
  have h1 : ∀ fmt env v, subValue rec g fmt env v = subValue rec g' fmt env v := subValue_graph hrec g g'
  cases l with
  | sum l =>
    simp only [layout]
    congr 1
    funext env
    congr 1
    funext _
    suffices ∀ vs sel, variants rec g env v vs sel = variants rec g' env v vs sel from this _ _
    intro vs
    induction vs with
    | nil => intro sel; cases sel <;> rfl
    | cons x vs ih => intro sel; simp only [variants, h1, ih]
  | product l =>
    simp only [layout]
    split
    · congr 1
      funext env
      congr 1
      funext _
      suffices ∀ m, entries rec g env l.fields m = entries rec g' env l.fields m by rw [this]
      intro m
      induction m with
      | nil => rfl
      | cons e m ih => obtain ⟨k, v⟩ := e; simp only [entries, h1, ih]
    · rfl
  | unordered l =>
    simp only [layout]
    split
    · congr 1
      funext env
      congr 1
      funext _
      suffices ∀ vs, items rec g env l.item vs = items rec g' env l.item vs from this _
      intro vs
      induction vs with
      | nil => rfl
      | cons e m ih => simp only [items, h1, ih]
    · rfl
  | ordered l =>
    simp only [layout]
    split
    · congr 1
      funext env
      congr 1
      funext _
      congr 1
      funext head
      suffices ∀ vs head, nodes rec g env l.node l.tail head vs = nodes rec g' env l.node l.tail head vs from this _ _
      intro vs
      induction vs with
      | nil => intro _; rfl
      | cons e m ih => intro head; simp only [nodes, h1, ih]
    · rfl
  | sized l =>
    simp only [layout]
    split
    · congr 1
      funext env
      congr 1
      funext _
      suffices ∀ vs is, sizedItems rec g env vs is = sizedItems rec g' env vs is from this _ _
      intro vs
      induction vs with
      | nil => intro is; cases is <;> rfl
      | cons e m ih => intro is; cases is <;> simp only [sizedItems, h1, ih]
    · rfl
  | _ => rfl

/-- The graph given to dehydration is ignored. -/
theorem dehydrateWith_graph (c : DeCtx) (n : Nat) : IgnoresGraph (dehydrateWith c n) := by
  induction n with
  | zero => intro v g g' ref ins; rfl
  | succ n ih =>
    intro v g g' ref ins
    unfold dehydrateWith
    split
    · rfl
    · split
      · rfl
      · exact layout_graph c ih _ _ _ _ _ _

/-! ## Variants that fail at the head -/

theorem layout_headMismatch (c : DeCtx) (rec : Rec) {v : Value} (g : Option IRes) (ref : Term) (inputs : List IRes)
    {l : Layout Term} (h : l.HeadMismatch v) (s : DeState) :
    layout c rec v g ref inputs l s = (.err .incompatibleLayout, s) := by
  cases l with
  | never => rfl
  | unit l => simp only [layout, if_neg h]; rfl
  | sum l => exact h.elim
  | always => exact h.elim
  | _ =>
    simp only [layout]
    split
    · exact absurd rfl (h _)
    · rfl

theorem dehydrateWith_headMismatch (c : DeCtx) (n : Nat) {v : Value} (g : Option IRes) {ref : Term}
    (inputs : List IRes) {l : Layout Term} (hl : c.reg ref = some l) (h : l.HeadMismatch v) (s : DeState) :
    ∃ e, dehydrateWith c (n + 1) v g ref inputs s = (.err e, s) := by
  conv => enter [1, e]; lhs; unfold dehydrateWith
  rw [hl]
  simp only
  split
  · exact ⟨_, rfl⟩
  · exact ⟨_, layout_headMismatch c _ g ref inputs h s⟩

/-- Variants that all fail at the head only consume resources. -/
theorem variants_skip {rec : Rec} {graph : Option IRes} {env : Env IRes} {v : Value} {xs ys : List (Variant Term)}
    (hc : ∀ x ∈ xs, PatsBelow (env.flat.length + x.intro) x.dataset ∧ x.value.Below (env.flat.length + x.intro))
    (h : ∀ x ∈ xs, ∀ ρ s, ∃ e, call rec graph x.value ρ v s = (.err e, s)) (sel : Option (List (Quad IRes)))
    (s : DeState) :
    variants rec graph env v (xs ++ ys) sel s = variants rec graph env v ys sel (alloc (xs.map Variant.intro).sum s) := by
  induction xs generalizing s with
  | nil => rfl
  | cons x xs ih =>
    rw [List.forall_mem_cons] at hc h
    obtain ⟨e, he⟩ := h.1 (scope env.flat x.intro s) (alloc x.intro s)
    rw [List.cons_append, variants_cons hc.1.1 hc.1.2, he]
    simp only
    rw [ih hc.2 h.2]
    simp only [alloc, List.map_cons, List.sum_cons, Nat.add_assoc]

theorem patInst_iff {ρ : List IRes} {p : Pattern Term} (h : p.Below ρ.length) {r : IRes} :
    patInst ρ p = r ↔ p.Instance (fun x => ρ[x]?) r := by
  cases p with
  | res t => simp only [patInst, Pattern.Instance]; exact eq_comm
  | var x =>
    have hx : x < ρ.length := h x (by simp [Pattern.vars])
    simp only [patInst, Pattern.Instance]
    rw [List.getD_eq_getElem?_getD, List.getElem?_eq_getElem hx]
    simp

theorem quadInst_iff {ρ : List IRes} {p : QuadPat Term} (h : p.s.Below ρ.length ∧ p.p.Below ρ.length ∧
    p.o.Below ρ.length ∧ ∀ g, p.g = some g → g.Below ρ.length) {q : Quad IRes} :
    quadInst ρ p = q ↔ p.Instance (fun x => ρ[x]?) q := by
  obtain ⟨h1, h2, h3, h4⟩ := h
  obtain ⟨s, p', o, g⟩ := q
  unfold QuadPat.Instance
  rw [← patInst_iff h1, ← patInst_iff h2, ← patInst_iff h3]
  simp only [quadInst, Quad.mk.injEq]
  refine and_congr Iff.rfl (and_congr Iff.rfl (and_congr Iff.rfl ?_))
  cases hg : p.g with
  | none => cases g <;> simp
  | some pg =>
    cases g with
    | none => simp
    | some g => simp only [Option.map_some, Option.some.injEq]; exact patInst_iff (h4 pg hg)

theorem patsInst_iff {ρ : List IRes} {qs : List (QuadPat Term)} (h : PatsBelow ρ.length qs) {q : Quad IRes} :
    (∃ p ∈ qs, quadInst ρ p = q) ↔ ∃ p ∈ qs, p.Instance (fun x => ρ[x]?) q := by
  induction qs with
  | nil => simp
  | cons p qs ih =>
    rw [PatsBelow.cons] at h
    simp only [List.mem_cons, exists_eq_or_imp, ih h.2, quadInst_iff h.1]

/-- What a sum outputs when every variant but one fails at the head. -/
theorem sum_output (c : DeCtx) (hc : c.reg.Closed) (n : Nat) (g : Option IRes) {ref : Term} {l : SumLayout Term}
    (hl : c.reg ref = some (.sum l)) {ins : List IRes} (hi : ins.length = l.input) {v : Value}
    {before after : List (Variant Term)} {x : Variant Term} (hv : l.variants = before ++ x :: after)
    (hskip : ∀ y ∈ before ++ after, ∃ l', c.reg y.value.layout = some l' ∧ l'.HeadMismatch v) {s s' : DeState}
    (h : dehydrateWith c (n + 2) v g ref ins s = (.ok (), s')) :
    ∃ new new' s0 s1 g' ins', new.length = l.intro ∧ new'.length = x.intro ∧
      (∀ q, q ∈ s0.out ↔ q ∈ s.out ∨ ∃ p ∈ l.dataset, p.Instance (fun i => (ins ++ new)[i]?) q) ∧
      s0.terms = s.terms ∧
      List.Forall₂ (Pattern.Instance fun i => (ins ++ new ++ new')[i]?) x.value.input ins' ∧
      dehydrateWith c (n + 1) v g' x.value.layout ins' s0 = (.ok (), s1) ∧
      (∀ q, q ∈ s'.out ↔ q ∈ s1.out ∨ ∃ p ∈ x.dataset, p.Instance (fun i => (ins ++ new ++ new')[i]?) q) ∧
      s'.terms = s1.terms := by
  have hcl := hc _ _ hl
  have hb : ∀ y ∈ before ++ after, PatsBelow (l.input + l.intro + y.intro) y.dataset ∧
      y.value.Below (l.input + l.intro + y.intro) := fun y hy => hcl.2 y (by
        rw [hv]; rcases List.mem_append.1 hy with h | h <;> simp [h])
  have hx := hcl.2 x (by rw [hv]; simp)
  rw [dehydrateWith_succ hl (by simp [Layout.inputCount, hi])] at h
  simp only [layout] at h
  have hlen : ∀ k, (ins ++ freshList s.fresh k).length = l.input + k := by simp [freshList, hi]
  rw [intro_emit (by simpa [Env.flat, hi] using hcl.1)] at h
  have hskip' : ∀ ys, ys ⊆ before ++ after → ∀ y ∈ ys, ∀ ρ s1, ∃ e,
      call (dehydrateWith c (n + 1)) g y.value ρ v s1 = (.err e, s1) := by
    intro ys hys y hy ρ s1
    obtain ⟨l', hl', hm⟩ := hskip y (hys hy)
    exact dehydrateWith_headMismatch c n _ _ hl' hm s1
  have hscope : (scope ins l.intro s).length = l.input + l.intro := hlen _
  rw [hv, variants_skip (fun y hy => by
      have := hb y (by simp [hy])
      simpa [Env.flat, freshList, hi] using this) (hskip' before (by simp)),
    variants_cons (by simpa [Env.flat, freshList, hi] using hx.1) (by simpa [Env.flat, freshList, hi] using hx.2)] at h
  have hafter : ∀ y ∈ after, PatsBelow ((Env.child (.root ins) (freshList s.fresh l.intro)).flat.length + y.intro)
      y.dataset ∧ y.value.Below ((Env.child (.root ins) (freshList s.fresh l.intro)).flat.length + y.intro) :=
    fun y hy => by
      have := hb y (by simp [hy])
      simpa [Env.flat, freshList, hi] using this
  generalize hs2 : alloc (before.map Variant.intro).sum (emit (scope (Env.root ins).flat l.intro s) l.dataset
    (alloc l.intro s)) = s2 at h
  have hflat : (Env.child (.root ins) (freshList s.fresh l.intro)).flat = ins ++ freshList s.fresh l.intro := rfl
  have hout : ∀ q, q ∈ s2.out ↔ q ∈ s.out ∨ ∃ p ∈ l.dataset, p.Instance (fun i => (ins ++ freshList s.fresh l.intro)[i]?) q := by
    intro q
    rw [← hs2, ← patsInst_iff (by rw [hlen]; exact hcl.1)]
    exact mem_emit
  have hterms : s2.terms = s.terms := by rw [← hs2]; rfl
  rw [hflat] at h
  have hlen2 : (scope (ins ++ freshList s.fresh l.intro) x.intro s2).length = l.input + l.intro + x.intro := by
    simp [scope, freshList, hi, Nat.add_assoc]
  rcases hcall : call (dehydrateWith c (n + 1)) g x.value (scope (ins ++ freshList s.fresh l.intro) x.intro s2) v
    (alloc x.intro s2) with ⟨a | e | _ | _, s1⟩ <;> rw [hcall] at h <;> simp only at h
  · rw [← List.append_nil after, variants_skip hafter (hskip' after (by simp))] at h
    simp only [variants, DeM.modify, Prod.mk.injEq, true_and] at h
    refine ⟨freshList s.fresh l.intro, freshList s2.fresh x.intro, alloc x.intro s2, s1, _, _, by simp [freshList],
      by simp [freshList], hout, hterms, ?_, hcall, ?_, ?_⟩
    · have hx2 := hx.2.1
      clear hcall
      generalize x.value.input = ps at hx2
      induction ps with
      | nil => exact .nil
      | cons p ps ih =>
        rw [List.forall_mem_cons] at hx2
        refine .cons ?_ (ih hx2.2)
        exact (patInst_iff (ρ := scope (ins ++ freshList s.fresh l.intro) x.intro s2) (by rw [hlen2]; exact hx2.1)).1 rfl
    · intro q
      rw [← h]
      simp only [mem_foldl_insertQuad, List.mem_map]
      refine or_congr Iff.rfl ?_
      exact patsInst_iff (by rw [hlen2]; exact hx.1)
    · rw [← h]; rfl
  · rw [← List.append_nil after, variants_skip hafter (hskip' after (by simp))] at h
    simp [variants, DeM.fail] at h
  · simp at h
  · simp at h

end Verif.Dehydrate
