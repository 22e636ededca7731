import Verif.DehydrateSpec
import Verif.DehydrateClosed
import Verif.DehydrateConform

/-! # Which outcomes dehydration can have -/

set_option linter.unusedSectionVars false
set_option linter.unusedSimpArgs false

namespace Verif

/-- The outcome is neither an error in `E`, nor a panic if `P`, nor an exhausted bound if `F`. -/
def Out.Avoid {α : Type} (E : DeError → Prop) (P F : Prop) : Out DeError α → Prop
  | .ok _ => True
  | .err e => ¬ E e
  | .panic => ¬ P
  | .fuel => ¬ F

namespace Dehydrate

variable {E : DeError → Prop} {P F : Prop}

theorem avoid_bind {α β : Type} {x : DeM α} {f : α → DeM β} {s : DeState} (hx : (x s).1.Avoid E P F)
    (hf : ∀ a s', x s = (.ok a, s') → (f a s').1.Avoid E P F) : (x.bind f s).1.Avoid E P F := by
  unfold DeM.bind
  rcases h : x s with ⟨a | e | _ | _, s'⟩ <;> rw [h] at hx
  · exact hf a s' h
  all_goals exact hx

/-- What is assumed of the recursive call, on a value and a format. -/
def CallAvoid (E : DeError → Prop) (P F : Prop) (rec : Rec) (fmt : ValueFormat Term) (v : Value) : Prop :=
  ∀ graph ρ s, (call rec graph fmt ρ v s).1.Avoid E P F

theorem avoid_entries {rec : Rec} {graph : Option IRes} {env : Env IRes} {fields : List (Value × Field Term)}
    (hc : ∀ e ∈ fields, PatsBelow (env.flat.length + e.2.intro) e.2.dataset ∧
      e.2.value.Below (env.flat.length + e.2.intro))
    {m : List (Value × Value)}
    (h : ∀ k v, (k, v) ∈ m → ∀ f, lookup k fields = some f → CallAvoid E P F rec f.value v)
    (hn : ∀ k v, (k, v) ∈ m → lookup k fields = none → ¬ E .incompatibleLayout) (s : DeState) :
    (entries rec graph env fields m s).1.Avoid E P F := by
  induction m generalizing s with
  | nil => trivial
  | cons e m ih =>
    obtain ⟨key, v⟩ := e
    cases hl : lookup key fields with
    | none =>
      unfold entries
      simp only [hl]
      exact hn key v (by simp) hl
    | some f =>
      have := hc _ (mem_of_lookup hl)
      rw [entries_cons hl this.1 this.2]
      refine avoid_bind (h key v (by simp) f hl _ _ _) fun _ s' _ => ih ?_ ?_ s'
      · exact fun k v hm => h k v (List.mem_cons_of_mem _ hm)
      · exact fun k v hm => hn k v (List.mem_cons_of_mem _ hm)

theorem avoid_requireKeys {ref : Term} {m : List (Value × Value)} {fields : List (Value × Field Term)}
    (h : ∀ k f, (k, f) ∈ fields → f.required = true → (∃ v, (k, v) ∈ m) ∨ ¬ E (.missingRequiredKey ref k m))
    (s : DeState) : (requireKeys ref m fields s).1.Avoid E P F := by
  induction fields with
  | nil => trivial
  | cons e fs ih =>
    obtain ⟨key, field⟩ := e
    unfold requireKeys
    by_cases hc : (field.required && !(m.any fun e => e.1 == key)) = true
    · rw [if_pos hc]
      simp only [Bool.and_eq_true, Bool.not_eq_true', List.any_eq_false, beq_iff_eq] at hc
      rcases h key field (by simp) hc.1 with ⟨v, hv⟩ | h
      · exact absurd rfl (hc.2 _ hv)
      · exact h
    · rw [if_neg hc]
      exact ih fun k f hm => h k f (List.mem_cons_of_mem _ hm)

theorem avoid_items {rec : Rec} {graph : Option IRes} {env : Env IRes} {item : ItemLayout Term}
    (hc : item.Closed (env.flat.length + item.intro)) {vs : List Value}
    (h : ∀ v ∈ vs, CallAvoid E P F rec item.value v) (s : DeState) :
    (items rec graph env item vs s).1.Avoid E P F := by
  induction vs generalizing s with
  | nil => trivial
  | cons v vs ih =>
    rw [items_cons hc]
    exact avoid_bind (h v (by simp) _ _ _) fun _ s' _ => ih (fun v hv => h v (List.mem_cons_of_mem _ hv)) s'

theorem avoid_nodes {rec : Rec} {graph : Option IRes} {env : Env IRes} {node : ItemLayout Term} {tail : Pattern Term}
    (ht : tail.Below env.flat.length) (hc : node.Closed (env.flat.length + 2 + node.intro)) {vs : List Value}
    (h : ∀ v ∈ vs, CallAvoid E P F rec node.value v) (head : IRes) (s : DeState) :
    (nodes rec graph env node tail head vs s).1.Avoid E P F := by
  induction vs generalizing s head with
  | nil => trivial
  | cons v vs ih =>
    rw [nodes_cons ht hc]
    exact avoid_bind (h v (by simp) _ _ _) fun _ s' _ => ih (fun v hv => h v (List.mem_cons_of_mem _ hv)) _ s'

theorem avoid_sizedItems {rec : Rec} {graph : Option IRes} {env : Env IRes} {is : List (ItemLayout Term)}
    (hc : ∀ i ∈ is, i.Closed (env.flat.length + i.intro)) {vs : List Value}
    (h : ∀ e ∈ is.zip vs, CallAvoid E P F rec e.1.value e.2)
    (hn : vs.length = is.length ∨ ¬ E .incompatibleLayout) (s : DeState) :
    (sizedItems rec graph env vs is s).1.Avoid E P F := by
  induction vs generalizing s is with
  | nil =>
    cases is with
    | nil => trivial
    | cons i is => exact hn.resolve_left (by simp)
  | cons v vs ih =>
    cases is with
    | nil => exact hn.resolve_left (by simp)
    | cons i is =>
      rw [List.forall_mem_cons] at hc
      rw [List.zip_cons_cons, List.forall_mem_cons] at h
      rw [sizedItems_cons hc.1]
      exact avoid_bind (h.1 _ _ _) fun _ s' _ => ih hc.2 h.2 (hn.imp (by simp) id) s'

theorem avoid_variants {rec : Rec} {graph : Option IRes} {env : Env IRes} {v : Value} {vs : List (Variant Term)}
    (hc : ∀ x ∈ vs, PatsBelow (env.flat.length + x.intro) x.dataset ∧ x.value.Below (env.flat.length + x.intro))
    (h : ∀ x ∈ vs, CallAvoid (fun _ => False) P F rec x.value v) (h1 : ¬ E .incompatibleLayout)
    (h2 : ¬ E .dataAmbiguity) (sel : Option (List (Quad IRes))) (s : DeState) :
    (variants rec graph env v vs sel s).1.Avoid E P F := by
  induction vs generalizing s sel with
  | nil =>
    cases sel with
    | none => exact h1
    | some _ => trivial
  | cons x vs ih =>
    rw [List.forall_mem_cons] at hc h
    rw [variants_cons hc.1.1 hc.1.2]
    have hx := h.1 graph (scope env.flat x.intro s) (alloc x.intro s)
    rcases hr : call rec graph x.value (scope env.flat x.intro s) v (alloc x.intro s) with ⟨a | e | _ | _, s'⟩
    · cases sel with
      | some _ => exact h2
      | none => exact ih hc.2 h.2 _ s'
    · exact ih hc.2 h.2 _ s'
    · rw [hr] at hx; exact hx
    · rw [hr] at hx; exact hx

/-- Closed layouts, with the number of inputs they expect: the only failures are those of the recursive calls,
incompatible values, ambiguities, missing keys, and unsupported literals. -/
theorem avoid_layout {c : DeCtx} {rec : Rec} {v : Value} {graph : Option IRes} {ref : Term} {inputs : List IRes}
    {l : Layout Term} (hl : l.Closed) (hi : ∀ k, l.inputCount = some k → inputs.length = k)
    (h : ∀ fmt v', SubCall l v fmt v' → CallAvoid E P F rec fmt v')
    (h1 : ¬ E .incompatibleLayout) (h2 : ¬ E .dataAmbiguity) (h3 : ∀ r k m, ¬ E (.missingRequiredKey r k m))
    (hP : P → ¬ Unwritable c.xsd l v) (s : DeState) :
    (layout c rec v graph ref inputs l s).1.Avoid E P F := by
  cases l with
  | never => exact h1
  | always => trivial
  | unit l =>
    simp only [layout]
    split
    · have := hi 1 rfl
      rw [intro_bind, instDataset_eq]
      · trivial
      · rw [length_flat_child, Env.flat, this]; exact hl
    · exact h1
  | boolean l =>
    have hi := hi 1 rfl
    simp only [layout]
    split
    · rw [data_eq (by rw [hi]; exact hl.1) (by rw [hi]; exact hl.2)]
      refine avoid_bind ?_ fun _ _ _ => trivial
      simp only [DeM.read, booleanLit]
      split
      · trivial
      · rename_i hf
        intro hp
        refine hP hp (.boolean fun hd => ?_)
        simp [hd, irisOf] at hf
    · exact h1
  | number l =>
    have hi := hi 1 rfl
    simp only [layout]
    split
    · rw [data_eq (by rw [hi]; exact hl.1) (by rw [hi]; exact hl.2)]
      refine avoid_bind ?_ fun _ _ _ => trivial
      simp only [DeM.read, numberLit]
      split
      · split
        · trivial
        · rename_i hf
          intro hp
          exact hP hp (.number hf)
      · rename_i hf
        intro hp
        refine hP hp (.datatype fun i hd => ?_)
        rw [Bool.eq_false_iff]
        intro hdec
        simp [hd, irisOf, hdec] at hf
    · exact h1
  | byteString l =>
    have hi := hi 1 rfl
    simp only [layout]
    split
    · rw [data_eq (by rw [hi]; exact hl.1) (by rw [hi]; exact hl.2)]
      refine avoid_bind ?_ fun _ _ _ => trivial
      exact fun hp => hP hp .byteString
    · exact h1
  | textString l =>
    have hi := hi 1 rfl
    simp only [layout]
    split
    · rw [data_eq (by rw [hi]; exact hl.1) (by rw [hi]; exact hl.2)]
      refine avoid_bind ?_ fun _ _ _ => trivial
      simp only [DeM.read, textLit]
      split
      · trivial
      · rename_i hf
        intro hp
        refine hP hp (.text fun i hd => ?_)
        simp [hd, irisOf] at hf
    · exact h1
  | id l =>
    have hi := hi 1 rfl
    simp only [layout]
    split
    · rw [ident_eq (by rw [hi]; exact hl.1) (by rw [hi]; exact hl.2)]
      split
      · trivial
      · exact h1
    · exact h1
  | sum l =>
    have hi := hi _ rfl
    simp only [layout]
    rw [intro_emit (env := .root inputs) (by rw [Env.flat, hi]; exact hl.1)]
    refine avoid_variants ?_ ?_ h1 h2 _ _
    · rw [length_flat_child, Env.flat, hi]; exact hl.2
    · intro x hx g ρ s
      have := h _ _ (.sum hx) g ρ s
      revert this
      generalize (call rec g x.value ρ v s).1 = o
      cases o <;> simp [Out.Avoid]
  | product l =>
    have hi := hi _ rfl
    simp only [layout]
    split
    · rw [intro_emit (env := .root inputs) (by rw [Env.flat, hi]; exact hl.1)]
      refine avoid_bind (avoid_entries ?_ ?_ (fun _ _ _ _ => h1) _) fun _ s' _ => avoid_requireKeys
        (fun _ _ _ _ => .inr (h3 _ _ _)) _
      · rw [length_flat_child, Env.flat, hi]; exact hl.2
      · intro k v hm f hf
        exact h _ _ (.product hm (mem_of_lookup hf))
    · exact h1
  | unordered l =>
    have hi := hi _ rfl
    simp only [layout]
    split
    · rw [intro_emit (env := .root inputs) (by rw [Env.flat, hi]; exact hl.1)]
      refine avoid_items ?_ (fun v hv => h _ _ (.unordered hv)) _
      rw [length_flat_child, Env.flat, hi]; exact hl.2
    · exact h1
  | ordered l =>
    have hi := hi _ rfl
    simp only [layout]
    split
    · rw [intro_emit (env := .root inputs) (by rw [Env.flat, hi]; exact hl.1), readPattern_bind]
      · refine avoid_nodes ?_ ?_ (fun v hv => h _ _ (.ordered hv)) _ _
        · rw [length_flat_child, Env.flat, hi]; exact hl.2.2.1
        · rw [length_flat_child, Env.flat, hi]; exact hl.2.2.2
      · rw [length_flat_child, Env.flat, hi]; exact hl.2.1
    · exact h1
  | sized l =>
    have hi := hi _ rfl
    simp only [layout]
    split
    · rw [intro_emit (env := .root inputs) (by rw [Env.flat, hi]; exact hl.1)]
      refine avoid_sizedItems ?_ (fun e he => h _ _ (.sized he)) (.inr h1) _
      rw [length_flat_child, Env.flat, hi]; exact hl.2
    · exact h1

theorem dehydrateWith_succ {c : DeCtx} {n : Nat} {v : Value} {g : Option IRes} {ref : Term} {ins : List IRes}
    {l : Layout Term} (hl : c.reg ref = some l) (hi : ∀ k, l.inputCount = some k → ins.length = k) :
    dehydrateWith c (n + 1) v g ref ins = layout c (dehydrateWith c n) v g ref ins l := by
  conv => lhs; unfold dehydrateWith
  rw [hl]
  simp only
  rw [if_neg]
  cases h : l.inputCount with
  | none => simp
  | some k => simp [hi k h]

theorem avoid_dehydrateWith_succ {c : DeCtx} {n : Nat} {v : Value} {g : Option IRes} {ref : Term} {ins : List IRes}
    {s : DeState} (h1 : ∀ r, ¬ E (.layoutNotFound r)) (h2 : ∀ a b, ¬ E (.invalidInputCount a b))
    (h : ∀ l, c.reg ref = some l → (∀ k, l.inputCount = some k → ins.length = k) →
      (layout c (dehydrateWith c n) v g ref ins l s).1.Avoid E P F) :
    (dehydrateWith c (n + 1) v g ref ins s).1.Avoid E P F := by
  cases hl : c.reg ref with
  | none =>
    unfold dehydrateWith
    rw [hl]
    exact h1 _
  | some l =>
    by_cases hi : ∀ k, l.inputCount = some k → ins.length = k
    · rw [dehydrateWith_succ hl hi]
      exact h l hl hi
    · unfold dehydrateWith
      rw [hl]
      simp only
      rw [if_pos]
      · exact h2 _ _
      · cases hk : l.inputCount with
        | none => rw [hk] at hi; simp at hi
        | some k =>
          rw [hk] at hi
          simp only [Option.some.injEq, forall_eq'] at hi
          simp [Ne.symm hi]

/-- **Closed** layouts never report an undeclared variable. -/
theorem dehydrateWith_ne_undeclared (c : DeCtx) (hc : c.reg.Closed) (n : Nat) (v : Value) (g : Option IRes)
    (ref : Term) (ins : List IRes) (s : DeState) :
    (dehydrateWith c n v g ref ins s).1.Avoid (fun e => ∃ x, e = .undeclaredVariable x) False False := by
  induction n generalizing v g ref ins s with
  | zero => exact id
  | succ n ih =>
    refine avoid_dehydrateWith_succ (by simp) (by simp) fun l hl hi => ?_
    exact avoid_layout (hc _ _ hl) hi (fun _ _ _ _ _ _ => ih ..) (by simp) (by simp) (by simp) (by simp) s

theorem SubCall.printable {l : Layout Term} {v : Value} {fmt : ValueFormat Term} {v' : Value}
    (h : SubCall l v fmt v') {xsd : Xsd} (hv : v.Printable xsd) : v'.Printable xsd := by
  intro q hq
  cases h with
  | product hm _ => exact hv q (.map hm hq)
  | unordered hm => exact hv q (.list hm hq)
  | ordered hm => exact hv q (.list hm hq)
  | sized hm => exact hv q (.list (List.of_mem_zip hm).2 hq)
  | sum _ => exact hv q hq

theorem not_unwritable {xsd : Xsd} {l : Layout Term} {v : Value} (hs : l.Supported xsd) (hv : v.Printable xsd) : ¬ Unwritable xsd l v := by
  intro h
  cases h with
  | boolean h => exact h hs
  | datatype h =>
    obtain ⟨i, hd, hdec⟩ := hs
    rw [h i hd] at hdec
    cases hdec
  | number h =>
    obtain ⟨t, ht⟩ := hv _ (.here _)
    rw [h] at ht
    cases ht
  | byteString => exact hs
  | text h =>
    obtain ⟨i, hd⟩ := hs
    exact h i hd

/-- Supported layouts and printable numbers: no panic. -/
theorem dehydrateWith_ne_panic (c : DeCtx) (hc : c.reg.Closed) (hs : c.Supported) (n : Nat) (v : Value)
    (hv : v.Printable c.xsd) (g : Option IRes) (ref : Term) (ins : List IRes) (s : DeState) :
    (dehydrateWith c n v g ref ins s).1.Avoid (fun _ => False) True False := by
  induction n generalizing v g ref ins s with
  | zero => exact id
  | succ n ih =>
    refine avoid_dehydrateWith_succ (by simp) (by simp) fun l hl hi => ?_
    exact avoid_layout (hc _ _ hl) hi (fun _ _ hsub _ _ _ => ih _ (SubCall.printable hsub hv) ..) id id (fun _ _ _ => id)
      (fun _ => not_unwritable (hs _ _ hl) hv) s

/-- A bound that works for finitely many elements. -/
theorem exists_bound {α : Type} (l : List α) (Q : α → Nat → Prop) (h : ∀ a ∈ l, ∃ N, ∀ n, N ≤ n → Q a n) :
    ∃ N, ∀ a ∈ l, ∀ n, N ≤ n → Q a n := by
  induction l with
  | nil => exact ⟨0, by simp⟩
  | cons a l ih =>
    rw [List.forall_mem_cons] at h
    obtain ⟨N1, h1⟩ := h.1
    obtain ⟨N2, h2⟩ := ih h.2
    refine ⟨max N1 N2, ?_⟩
    rw [List.forall_mem_cons]
    exact ⟨fun n hn => h1 n (by omega), fun b hb n hn => h2 b hb n (by omega)⟩

/-- The sub-calls of a layout on a value are finitely many. -/
theorem subCall_bound {l : Layout Term} {v : Value} (Q : ValueFormat Term → Value → Nat → Prop)
    (h : ∀ fmt v', SubCall l v fmt v' → ∃ N, ∀ n, N ≤ n → Q fmt v' n) :
    ∃ N, ∀ fmt v', SubCall l v fmt v' → ∀ n, N ≤ n → Q fmt v' n := by
  have key : ∃ cs : List (ValueFormat Term × Value), ∀ fmt v', SubCall l v fmt v' ↔ (fmt, v') ∈ cs := by
    cases l with
    | product l =>
      cases v with
      | map m =>
        refine ⟨m.flatMap fun e => (l.fields.filter fun f => f.1 == e.1).map fun f => (f.2.value, e.2), ?_⟩
        intro fmt v'
        simp only [List.mem_flatMap, List.mem_map, List.mem_filter, beq_iff_eq, Prod.mk.injEq]
        constructor
        · rintro ⟨hm, hf⟩
          exact ⟨_, hm, _, ⟨hf, rfl⟩, rfl, rfl⟩
        · rintro ⟨⟨k, v⟩, hm, ⟨k', f⟩, ⟨hf, rfl⟩, rfl, rfl⟩
          exact .product hm hf
      | literal _ => exact ⟨[], fun _ _ => by constructor <;> rintro ⟨⟩⟩
      | list _ => exact ⟨[], fun _ _ => by constructor <;> rintro ⟨⟩⟩
    | unordered l =>
      cases v with
      | list vs =>
        refine ⟨vs.map fun v => (l.item.value, v), fun fmt v' => ?_⟩
        simp only [List.mem_map, Prod.mk.injEq]
        constructor
        · intro h; cases h with | unordered hm => exact ⟨_, hm, rfl, rfl⟩
        · rintro ⟨v, hm, rfl, rfl⟩; exact .unordered hm
      | literal _ => exact ⟨[], fun _ _ => by constructor <;> rintro ⟨⟩⟩
      | map _ => exact ⟨[], fun _ _ => by constructor <;> rintro ⟨⟩⟩
    | ordered l =>
      cases v with
      | list vs =>
        refine ⟨vs.map fun v => (l.node.value, v), fun fmt v' => ?_⟩
        simp only [List.mem_map, Prod.mk.injEq]
        constructor
        · intro h; cases h with | ordered hm => exact ⟨_, hm, rfl, rfl⟩
        · rintro ⟨v, hm, rfl, rfl⟩; exact .ordered hm
      | literal _ => exact ⟨[], fun _ _ => by constructor <;> rintro ⟨⟩⟩
      | map _ => exact ⟨[], fun _ _ => by constructor <;> rintro ⟨⟩⟩
    | sized l =>
      cases v with
      | list vs =>
        refine ⟨(l.items.zip vs).map fun e => (e.1.value, e.2), fun fmt v' => ?_⟩
        simp only [List.mem_map, Prod.mk.injEq]
        constructor
        · intro h; cases h with | sized hm => exact ⟨_, hm, rfl, rfl⟩
        · rintro ⟨⟨i, v⟩, hm, rfl, rfl⟩; exact .sized hm
      | literal _ => exact ⟨[], fun _ _ => by constructor <;> rintro ⟨⟩⟩
      | map _ => exact ⟨[], fun _ _ => by constructor <;> rintro ⟨⟩⟩
    | sum l =>
      refine ⟨l.variants.map fun x => (x.value, v), fun fmt v' => ?_⟩
      simp only [List.mem_map, Prod.mk.injEq]
      constructor
      · intro h; cases h with | sum hm => exact ⟨_, hm, rfl, rfl⟩
      · rintro ⟨x, hm, rfl, rfl⟩; exact .sum hm
    | _ => exact ⟨[], fun _ _ => by constructor <;> rintro ⟨⟩⟩
  obtain ⟨cs, hcs⟩ := key
  obtain ⟨N, hN⟩ := exists_bound cs (fun e n => Q e.1 e.2 n) fun e he => h _ _ ((hcs _ _).2 he)
  exact ⟨N, fun fmt v' hs => hN (fmt, v') ((hcs _ _).1 hs)⟩

theorem SubCall.lt {l : Layout Term} {v : Value} {fmt : ValueFormat Term} {v' : Value} (h : SubCall l v fmt v') :
    sizeOf v' < sizeOf v ∨ ∃ k : SumLayout Term, l = .sum k ∧ v' = v ∧ ∃ x ∈ k.variants, x.value = fmt := by
  cases h with
  | product hm _ =>
    refine .inl ?_
    have := List.sizeOf_lt_of_mem hm
    simp only [Prod.mk.sizeOf_spec, Value.map.sizeOf_spec] at *
    omega
  | unordered hm =>
    refine .inl ?_
    have := List.sizeOf_lt_of_mem hm
    simp only [Value.list.sizeOf_spec] at *
    omega
  | ordered hm =>
    refine .inl ?_
    have := List.sizeOf_lt_of_mem hm
    simp only [Value.list.sizeOf_spec] at *
    omega
  | sized hm =>
    refine .inl ?_
    have := List.sizeOf_lt_of_mem (List.of_mem_zip hm).2
    simp only [Value.list.sizeOf_spec] at *
    omega
  | sum hx => exact .inr ⟨_, rfl, rfl, _, hx, rfl⟩

/-! ## Termination, whatever the layouts -/

/-- The computation ends, from every state. -/
def Ends {α : Type} (x : DeM α) : Prop := ∀ s, (x s).1 ≠ .fuel

theorem ends_bind {α β : Type} {x : DeM α} {f : α → DeM β} (hx : Ends x) (hf : ∀ a, Ends (f a)) : Ends (x.bind f) := by
  intro s
  have := hx s
  unfold DeM.bind
  rcases hr : x s with ⟨a | e | _ | _, s'⟩
  · exact hf a s'
  · simp
  · simp
  · rw [hr] at this
    exact absurd rfl this

theorem ends_pure {α : Type} (a : α) : Ends (DeM.pure a) := fun _ => by simp [DeM.pure]

theorem ends_fail {α : Type} (e : DeError) : Ends (DeM.fail e : DeM α) := fun _ => by simp [DeM.fail]

theorem ends_modify (f : DeState → DeState) : Ends (DeM.modify f) := fun _ => by simp [DeM.modify]

theorem ends_read {α : Type} {f : DeState → Out DeError α} (h : ∀ s, f s ≠ .fuel) : Ends (DeM.read f) := h

theorem ends_newResources (n : Nat) : Ends (newResources n) := by
  induction n with
  | zero => exact ends_pure _
  | succ n ih => exact ends_bind (fun _ => by simp [newResource]) fun _ => ends_bind ih fun _ => ends_pure _

theorem ends_intro (env : Env IRes) (n : Nat) : Ends (intro env n) := ends_bind (ends_newResources n) fun _ => ends_pure _

theorem bind_ne_fuel {α β : Type} {x : Out DeError α} {f : α → Out DeError β} (hx : x ≠ .fuel) (hf : ∀ a, f a ≠ .fuel) :
    x.bind f ≠ .fuel := by
  cases x with
  | ok a => exact hf a
  | err e => simp [Out.bind]
  | panic => simp [Out.bind]
  | fuel => exact absurd rfl hx

theorem instPattern_ne_fuel (env : Env IRes) (p : Pattern Term) : instPattern env p ≠ .fuel := by
  cases p with
  | var x => simp only [instPattern]; split <;> simp
  | res t => simp [instPattern]

theorem mapM'_ne_fuel {α β : Type} {f : α → Out DeError β} (h : ∀ a, f a ≠ .fuel) (l : List α) : Out.mapM' f l ≠ .fuel := by
  induction l with
  | nil => simp [Out.mapM']
  | cons a l ih => exact bind_ne_fuel (h a) fun _ => bind_ne_fuel ih fun _ => by simp

theorem instQuad_ne_fuel (env : Env IRes) (q : QuadPat Term) : instQuad env q ≠ .fuel := by
  refine bind_ne_fuel (instPattern_ne_fuel _ _) fun _ => bind_ne_fuel (instPattern_ne_fuel _ _) fun _ =>
    bind_ne_fuel (instPattern_ne_fuel _ _) fun _ => ?_
  split
  · simp
  · exact bind_ne_fuel (instPattern_ne_fuel _ _) fun _ => by simp

theorem ends_instDataset (env : Env IRes) (qs : List (QuadPat Term)) : Ends (instDataset env qs) := by
  induction qs with
  | nil => exact ends_pure _
  | cons q qs ih =>
    exact ends_bind (ends_read fun _ => instQuad_ne_fuel _ _) fun _ => ends_bind (ends_modify _) fun _ => ih

theorem ends_data (inputs : List IRes) (l : DataLayout Term) {lit : List String → Out DeError RdfLit} (h : ∀ i, lit i ≠ .fuel) :
    Ends (data inputs l lit) :=
  ends_bind (ends_intro _ _) fun _ => ends_bind (ends_instDataset _ _) fun _ => ends_bind (ends_read fun _ => instPattern_ne_fuel _ _)
    fun _ => ends_bind (ends_read fun _ => h _) fun _ => ends_modify _

theorem ends_subValue {rec : Rec} {fmt : ValueFormat Term} {v : Value} (h : ∀ g ins, Ends (rec v g fmt.layout ins)) (graph : Option IRes)
    (env : Env IRes) : Ends (subValue rec graph fmt env v) := by
  refine ends_bind (ends_read fun _ => mapM'_ne_fuel (instPattern_ne_fuel _) _) fun _ => ends_bind (ends_read fun _ => ?_) fun _ => h _ _
  split
  · simp
  · have := instPattern_ne_fuel env (by assumption)
    revert this
    generalize instPattern env _ = o
    cases o <;> simp [Out.map]
  · simp

theorem ends_variants {rec : Rec} {graph : Option IRes} {env : Env IRes} {v : Value} (vs : List (Variant Term))
    (h : ∀ x ∈ vs, ∀ g ins, Ends (rec v g x.value.layout ins)) (sel : Option (List (Quad IRes))) :
    Ends (variants rec graph env v vs sel) := by
  induction vs generalizing sel with
  | nil => cases sel with
    | none => exact ends_fail _
    | some q => exact ends_modify _
  | cons x vs ih =>
    rw [List.forall_mem_cons] at h
    refine ends_bind (ends_intro _ _) fun env' => ends_bind (ends_read fun _ => mapM'_ne_fuel (instQuad_ne_fuel _) _) fun quads s => ?_
    have := ends_subValue h.1 graph env' s
    rcases hr : subValue rec graph x.value env' v s with ⟨a | e | _ | _, s'⟩
    · simp only
      cases sel with
      | some _ => simp
      | none => exact ih h.2 _ s'
    · exact ih h.2 _ s'
    · simp
    · rw [hr] at this
      exact absurd rfl this

theorem ends_entries {rec : Rec} {graph : Option IRes} {env : Env IRes} {fields : List (Value × Field Term)} (m : List (Value × Value))
    (h : ∀ k v, (k, v) ∈ m → ∀ f, (k, f) ∈ fields → ∀ g ins, Ends (rec v g f.value.layout ins)) :
    Ends (entries rec graph env fields m) := by
  induction m with
  | nil => exact ends_pure _
  | cons e m ih =>
    obtain ⟨k, v⟩ := e
    simp only [entries]
    split
    · rename_i f hf
      exact ends_bind (ends_intro _ _) fun _ => ends_bind (ends_instDataset _ _) fun _ => ends_bind
        (ends_subValue (h k v (.head _) f (mem_of_lookup hf)) _ _) fun _ => ih fun k v hm => h k v (.tail _ hm)
    · exact ends_fail _

theorem ends_requireKeys (ref : Term) (m : List (Value × Value)) (fs : List (Value × Field Term)) : Ends (requireKeys ref m fs) := by
  induction fs with
  | nil => exact ends_pure _
  | cons f fs ih =>
    simp only [requireKeys]
    split
    · exact ends_fail _
    · exact ih

theorem ends_items {rec : Rec} {graph : Option IRes} {env : Env IRes} {item : ItemLayout Term} (vs : List Value)
    (h : ∀ v ∈ vs, ∀ g ins, Ends (rec v g item.value.layout ins)) : Ends (items rec graph env item vs) := by
  induction vs with
  | nil => exact ends_pure _
  | cons v vs ih =>
    rw [List.forall_mem_cons] at h
    exact ends_bind (ends_intro _ _) fun _ => ends_bind (ends_instDataset _ _) fun _ => ends_bind (ends_subValue h.1 _ _) fun _ => ih h.2

theorem ends_nodes {rec : Rec} {graph : Option IRes} {env : Env IRes} {node : ItemLayout Term} {tail : Pattern Term} (vs : List Value)
    (h : ∀ v ∈ vs, ∀ g ins, Ends (rec v g node.value.layout ins)) (head : IRes) : Ends (nodes rec graph env node tail head vs) := by
  induction vs generalizing head with
  | nil => exact ends_pure _
  | cons v vs ih =>
    rw [List.forall_mem_cons] at h
    refine ends_bind ?_ fun _ => ends_bind (ends_intro _ _) fun _ => ends_bind (ends_instDataset _ _) fun _ =>
      ends_bind (ends_subValue h.1 _ _) fun _ => ih h.2 _
    split
    · exact ends_read fun _ => instPattern_ne_fuel _ _
    · exact fun _ => by simp [newResource]

theorem ends_sizedItems {rec : Rec} {graph : Option IRes} {env : Env IRes} (vs : List Value) (is : List (ItemLayout Term))
    (h : ∀ i v, (i, v) ∈ is.zip vs → ∀ g ins, Ends (rec v g i.value.layout ins)) : Ends (sizedItems rec graph env vs is) := by
  induction vs generalizing is with
  | nil => cases is with
    | nil => exact ends_pure _
    | cons i is => exact ends_fail _
  | cons v vs ih => cases is with
    | nil => exact ends_fail _
    | cons i is =>
      exact ends_bind (ends_intro _ _) fun _ => ends_bind (ends_instDataset _ _) fun _ => ends_bind
        (ends_subValue (h i v (.head _)) _ _) fun _ => ih is fun i v hm => h i v (.tail _ hm)

theorem ends_layout (c : DeCtx) {rec : Rec} {v : Value} (l : Layout Term)
    (h : ∀ fmt v', SubCall l v fmt v' → ∀ g ins, Ends (rec v' g fmt.layout ins)) (graph : Option IRes) (ref : Term) (inputs : List IRes) :
    Ends (layout c rec v graph ref inputs l) := by
  cases l with
  | never => exact ends_fail _
  | always => exact ends_pure _
  | unit l =>
    simp only [layout]
    split
    · exact ends_bind (ends_intro _ _) fun _ => ends_instDataset _ _
    · exact ends_fail _
  | boolean l =>
    simp only [layout]
    split
    · exact ends_data _ _ fun _ => by unfold booleanLit; split <;> simp
    · exact ends_fail _
  | number l =>
    simp only [layout]
    split
    · refine ends_data _ _ fun _ => ?_
      unfold numberLit
      split
      · split <;> simp
      · simp
    · exact ends_fail _
  | byteString l =>
    simp only [layout]
    split
    · exact ends_data _ _ fun _ => by simp [byteStringLit]
    · exact ends_fail _
  | textString l =>
    simp only [layout]
    split
    · exact ends_data _ _ fun _ => by unfold textLit; split <;> simp
    · exact ends_fail _
  | id l =>
    simp only [layout]
    split
    · refine ends_bind (ends_intro _ _) fun _ => ends_bind (ends_instDataset _ _) fun _ =>
        ends_bind (ends_read fun _ => instPattern_ne_fuel _ _) fun _ => ?_
      split
      · exact ends_modify _
      · exact ends_fail _
    · exact ends_fail _
  | sum l =>
    exact ends_bind (ends_intro _ _) fun _ => ends_bind (ends_instDataset _ _) fun _ => ends_variants _ (fun x hx => h _ _ (.sum hx)) _
  | product l =>
    simp only [layout]
    split
    · exact ends_bind (ends_intro _ _) fun _ => ends_bind (ends_instDataset _ _) fun _ =>
        ends_bind (ends_entries _ fun k v hm f hf => h _ _ (.product hm hf)) fun _ => ends_requireKeys _ _ _
    · exact ends_fail _
  | unordered l =>
    simp only [layout]
    split
    · exact ends_bind (ends_intro _ _) fun _ => ends_bind (ends_instDataset _ _) fun _ =>
        ends_items _ fun v hv => h _ _ (.unordered hv)
    · exact ends_fail _
  | ordered l =>
    simp only [layout]
    split
    · exact ends_bind (ends_intro _ _) fun _ => ends_bind (ends_instDataset _ _) fun _ =>
        ends_bind (ends_read fun _ => instPattern_ne_fuel _ _) fun _ => ends_nodes _ (fun v hv => h _ _ (.ordered hv)) _
    · exact ends_fail _
  | sized l =>
    simp only [layout]
    split
    · exact ends_bind (ends_intro _ _) fun _ => ends_bind (ends_instDataset _ _) fun _ =>
        ends_sizedItems _ _ fun i v hm => h _ _ (.sized hm)
    · exact ends_fail _

/-- Dehydration terminates when layout references are not cyclic through sums. -/
theorem dehydrateWith_terminates (c : DeCtx) (ha : c.reg.AcyclicSums) (v : Value) (ref : Term) :
    ∃ N, ∀ n, N ≤ n → ∀ g ins, Ends (dehydrateWith c n v g ref ins) := by
  obtain ⟨rank, hrank⟩ := ha
  induction hk : sizeOf v using Nat.strongRecOn generalizing v ref with
  | _ k ihk =>
  induction hr : rank ref using Nat.strongRecOn generalizing ref with
  | _ r ihr =>
  subst hk hr
  cases hl : c.reg ref with
  | none =>
    refine ⟨1, fun n hn g ins s => ?_⟩
    obtain ⟨n, rfl⟩ : ∃ k, n = k + 1 := ⟨n - 1, by omega⟩
    unfold dehydrateWith
    rw [hl]
    simp [DeM.fail]
  | some l =>
    obtain ⟨N, hN⟩ := subCall_bound (l := l) (v := v)
      (fun fmt v' n => ∀ g ins, Ends (dehydrateWith c n v' g fmt.layout ins)) (by
        intro fmt v' hsub
        rcases SubCall.lt hsub with h | ⟨k, rfl, rfl, x, hx, rfl⟩
        · exact ihk _ h _ _ rfl
        · exact ihr _ (hrank _ _ hl x hx) _ rfl)
    refine ⟨N + 1, fun n hn g ins => ?_⟩
    obtain ⟨n, rfl⟩ : ∃ k, n = k + 1 := ⟨n - 1, by omega⟩
    unfold dehydrateWith
    rw [hl]
    simp only
    split
    · exact ends_fail _
    · exact ends_layout c l (fun fmt v' hsub => hN fmt v' hsub n (by omega)) _ _ _

/-! ## Conforming trees are not rejected -/

theorem avoid_variants_unique {rec : Rec} {graph : Option IRes} {env : Env IRes} {v : Value}
    {vs : List (Variant Term)}
    (hc : ∀ x ∈ vs, PatsBelow (env.flat.length + x.intro) x.dataset ∧ x.value.Below (env.flat.length + x.intro))
    (h : ∀ x ∈ vs, ∀ ρ s s' a, call rec graph x.value ρ v s ≠ (.ok a, s')) (sel : List (Quad IRes)) (s : DeState) :
    (variants rec graph env v vs (some sel) s).1.Avoid (fun _ => True) False False := by
  induction vs generalizing s with
  | nil => trivial
  | cons x vs ih =>
    rw [List.forall_mem_cons] at hc h
    rw [variants_cons hc.1.1 hc.1.2]
    rcases hr : call rec graph x.value (scope env.flat x.intro s) v (alloc x.intro s) with ⟨a | e | _ | _, s'⟩
    · exact absurd hr (h.1 _ _ _ _)
    · exact ih hc.2 h.2 s'
    · exact id
    · exact id

theorem avoid_variants_sum {rec : Rec} {graph : Option IRes} {env : Env IRes} {v : Value} {x : Variant Term}
    {before after : List (Variant Term)}
    (hc : ∀ y ∈ before ++ x :: after, PatsBelow (env.flat.length + y.intro) y.dataset ∧
      y.value.Below (env.flat.length + y.intro))
    (hx : CallAvoid (fun _ => True) False False rec x.value v)
    (h : ∀ x ∈ before ++ after, ∀ ρ s s' a, call rec graph x.value ρ v s ≠ (.ok a, s')) (s : DeState) :
    (variants rec graph env v (before ++ x :: after) none s).1.Avoid (fun _ => True) False False := by
  induction before generalizing s with
  | nil =>
    simp only [List.nil_append] at hc h ⊢
    rw [List.forall_mem_cons] at hc
    rw [variants_cons hc.1.1 hc.1.2]
    have h1 := hx graph (scope env.flat x.intro s) (alloc x.intro s)
    rcases hr : call rec graph x.value (scope env.flat x.intro s) v (alloc x.intro s) with ⟨a | e | _ | _, s'⟩
    · exact avoid_variants_unique hc.2 h _ s'
    · rw [hr] at h1; exact absurd trivial h1
    · exact id
    · exact id
  | cons y before ih =>
    simp only [List.cons_append, List.forall_mem_cons] at hc h ⊢
    rw [variants_cons hc.1.1 hc.1.2]
    rcases hr : call rec graph y.value (scope env.flat y.intro s) v (alloc y.intro s) with ⟨a | e | _ | _, s'⟩
    · exact absurd hr (h.1 _ _ _ _)
    · exact ih hc.2 h.2 s'
    · exact id
    · exact id

theorem lookup_of_mem {key : Value} {fields : List (Value × Field Term)} {f : Field Term} (h : (key, f) ∈ fields) :
    lookup key fields ≠ none := by
  unfold lookup
  intro hn
  rw [Option.map_eq_none_iff, List.find?_eq_none] at hn
  exact hn _ h (by simp)

/-- A uniquely conforming tree is not rejected, whatever the bound. -/
theorem dehydrateWith_ne_err (c : DeCtx) (hd : c.reg.DistinctKeys) (hc : c.reg.Closed) (hw : c.reg.WellTyped)
    {ref : Term} {v : Value} (hv : UniquelyConforms c.reg c.isIri ref v) (n : Nat) (g : Option IRes)
    (ins : List IRes) (hin : ∀ l k, c.reg ref = some l → l.inputCount = some k → ins.length = k) (s : DeState) :
    (dehydrateWith c n v g ref ins s).1.Avoid (fun _ => True) False False := by
  induction hv generalizing n g ins s with
  | unit hl =>
    cases n with
    | zero => exact id
    | succ n =>
      have hi := fun k => hin _ k hl
      rw [dehydrateWith_succ hl hi]
      simp only [layout, if_true]
      have := hi 1 rfl
      rw [intro_bind, instDataset_eq]
      · trivial
      · rw [length_flat_child, Env.flat, this]; exact hc _ _ hl
  | boolean b hl =>
    cases n with
    | zero => exact id
    | succ n =>
      have hi := fun k => hin _ k hl
      rw [dehydrateWith_succ hl hi]
      simp only [layout]
      have hi := hi 1 rfl
      have hcl := hc _ _ hl
      rw [data_eq (by rw [hi]; exact hcl.1) (by rw [hi]; exact hcl.2)]
      refine avoid_bind ?_ fun _ _ _ => trivial
      simp only [DeM.read, booleanLit]
      split
      · trivial
      · exact id
  | number q hl =>
    cases n with
    | zero => exact id
    | succ n =>
      have hi := fun k => hin _ k hl
      rw [dehydrateWith_succ hl hi]
      simp only [layout]
      have hi := hi 1 rfl
      have hcl := hc _ _ hl
      rw [data_eq (by rw [hi]; exact hcl.1) (by rw [hi]; exact hcl.2)]
      refine avoid_bind ?_ fun _ _ _ => trivial
      simp only [DeM.read, numberLit]
      split
      · split
        · trivial
        · exact id
      · exact id
  | byteString b hl =>
    cases n with
    | zero => exact id
    | succ n =>
      have hi := fun k => hin _ k hl
      rw [dehydrateWith_succ hl hi]
      simp only [layout]
      have hi := hi 1 rfl
      have hcl := hc _ _ hl
      rw [data_eq (by rw [hi]; exact hcl.1) (by rw [hi]; exact hcl.2)]
      exact avoid_bind id fun _ _ _ => trivial
  | textString t hl =>
    cases n with
    | zero => exact id
    | succ n =>
      have hi := fun k => hin _ k hl
      rw [dehydrateWith_succ hl hi]
      simp only [layout]
      have hi := hi 1 rfl
      have hcl := hc _ _ hl
      rw [data_eq (by rw [hi]; exact hcl.1) (by rw [hi]; exact hcl.2)]
      refine avoid_bind ?_ fun _ _ _ => trivial
      simp only [DeM.read, textLit]
      split
      · trivial
      · exact id
  | id t hl hiri =>
    cases n with
    | zero => exact _root_.id
    | succ n =>
      have hi := fun k => hin _ k hl
      rw [dehydrateWith_succ hl hi]
      simp only [layout]
      have hi := hi 1 rfl
      have hcl := hc _ _ hl
      rw [ident_eq (by rw [hi]; exact hcl.1) (by rw [hi]; exact hcl.2), if_pos hiri]
      trivial
  | @product ref l m hl h1 h2 h3 ih =>
    cases n with
    | zero => exact id
    | succ n =>
      have hi := fun k => hin _ k hl
      rw [dehydrateWith_succ hl hi]
      simp only [layout]
      have hi := hi _ rfl
      have hcl := hc _ _ hl
      rw [intro_emit (env := .root ins) (by rw [Env.flat, hi]; exact hcl.1)]
      refine avoid_bind (avoid_entries ?_ ?_ ?_ _) fun _ s' _ => avoid_requireKeys
        (fun k f hm hr => .inl (h3 k f hm hr)) _
      · rw [length_flat_child, Env.flat, hi]; exact hcl.2
      · intro k v hm f hf g ρ s
        refine ih k v f hm (mem_of_lookup hf) n _ _ ?_ s
        intro l' k' hl' hk'
        obtain ⟨l'', hl'', hlen⟩ := hw _ _ hl f.value (by
          simp only [Layout.formats, List.mem_map]; exact ⟨_, mem_of_lookup hf, rfl⟩)
        rw [hl'] at hl''
        cases hl''
        simp [hlen k' hk']
      · intro k v hm hn
        obtain ⟨f, hf⟩ := h1 k v hm
        exact absurd hn (lookup_of_mem hf)
  | @unordered ref l vs hl h1 ih =>
    cases n with
    | zero => exact id
    | succ n =>
      have hi := fun k => hin _ k hl
      rw [dehydrateWith_succ hl hi]
      simp only [layout]
      have hi := hi _ rfl
      have hcl := hc _ _ hl
      rw [intro_emit (env := .root ins) (by rw [Env.flat, hi]; exact hcl.1)]
      refine avoid_items ?_ (fun v hv g ρ s => ?_) _
      · rw [length_flat_child, Env.flat, hi]; exact hcl.2
      · refine ih v hv n _ _ ?_ s
        intro l' k' hl' hk'
        obtain ⟨l'', hl'', hlen⟩ := hw _ _ hl l.item.value (by simp [Layout.formats])
        rw [hl'] at hl''
        cases hl''
        simp [hlen k' hk']
  | @ordered ref l vs hl h1 ih =>
    cases n with
    | zero => exact id
    | succ n =>
      have hi := fun k => hin _ k hl
      rw [dehydrateWith_succ hl hi]
      simp only [layout]
      have hi := hi _ rfl
      have hcl := hc _ _ hl
      rw [intro_emit (env := .root ins) (by rw [Env.flat, hi]; exact hcl.1), readPattern_bind]
      · refine avoid_nodes ?_ ?_ (fun v hv g ρ s => ?_) _ _
        · rw [length_flat_child, Env.flat, hi]; exact hcl.2.2.1
        · rw [length_flat_child, Env.flat, hi]; exact hcl.2.2.2
        · refine ih v hv n _ _ ?_ s
          intro l' k' hl' hk'
          obtain ⟨l'', hl'', hlen⟩ := hw _ _ hl l.node.value (by simp [Layout.formats])
          rw [hl'] at hl''
          cases hl''
          simp [hlen k' hk']
      · rw [length_flat_child, Env.flat, hi]; exact hcl.2.1
  | @sized ref l vs hl hlen h1 ih =>
    cases n with
    | zero => exact id
    | succ n =>
      have hi := fun k => hin _ k hl
      rw [dehydrateWith_succ hl hi]
      simp only [layout]
      have hi := hi _ rfl
      have hcl := hc _ _ hl
      rw [intro_emit (env := .root ins) (by rw [Env.flat, hi]; exact hcl.1)]
      refine avoid_sizedItems ?_ (fun e he g ρ s => ?_) (.inl hlen) _
      · rw [length_flat_child, Env.flat, hi]; exact hcl.2
      · refine ih e he n _ _ ?_ s
        intro l' k' hl' hk'
        obtain ⟨l'', hl'', hlen⟩ := hw _ _ hl e.1.value (by
          simp only [Layout.formats, List.mem_map]; exact ⟨_, (List.of_mem_zip he).1, rfl⟩)
        rw [hl'] at hl''
        cases hl''
        simp [hlen k' hk']
  | @sum ref l before after x v hl heq hx hn ih =>
    cases n with
    | zero => exact id
    | succ n =>
      have hi := fun k => hin _ k hl
      rw [dehydrateWith_succ hl hi]
      simp only [layout]
      have hi := hi _ rfl
      have hcl := hc _ _ hl
      rw [intro_emit (env := .root ins) (by rw [Env.flat, hi]; exact hcl.1), heq]
      refine avoid_variants_sum ?_ (fun g ρ s => ?_) (fun y hy ρ s s' a hok => hn y hy ?_) _
      · rw [length_flat_child, Env.flat, hi, ← heq]; exact hcl.2
      · refine ih n _ _ ?_ s
        intro l' k' hl' hk'
        obtain ⟨l'', hl'', hlen⟩ := hw _ _ hl x.value (by
          simp only [Layout.formats, List.mem_map, heq]; exact ⟨x, by simp, rfl⟩)
        rw [hl'] at hl''
        cases hl''
        simp [hlen k' hk']
      · exact conf_dehydrateWith c hd n _ _ _ _ _ _ hok
  | always v hl =>
    cases n with
    | zero => exact id
    | succ n =>
      rw [dehydrateWith_succ hl (by simp [Layout.inputCount])]
      trivial

end Dehydrate

end Verif
