import Verif.Dehydrate
import Verif.LayoutSpec

/-! # Dehydration: basic lemmas -/

set_option linter.unusedSectionVars false
set_option linter.unusedSimpArgs false

namespace Verif

/-- All the resources of an environment, from the root. -/
def Env.flat {R : Type} : Env R → List R
  | .root inputs => inputs
  | .child parent intros => parent.flat ++ intros

theorem Env.get_eq {R : Type} (env : Env R) (i : Nat) :
    env.get i = match env.flat[i]? with
      | some r => .ok r
      | none => .error (i - env.flat.length) := by
  induction env with
  | root inputs => rfl
  | child parent intros ih =>
    simp only [Env.get, Env.flat, ih]
    by_cases h : i < parent.flat.length
    · rw [List.getElem?_append_left h, List.getElem?_eq_getElem h]
    · rw [List.getElem?_append_right (by omega), List.getElem?_eq_none (l := parent.flat) (by omega)]
      simp only [List.length_append]
      cases intros[i - parent.flat.length]? with
      | some r => rfl
      | none => simp only [Except.error.injEq]; omega

namespace DeM

variable {α β γ : Type}

theorem bind_ok {x : DeM α} {f : α → DeM β} {s s' : DeState} {a : α} (h : x s = (.ok a, s')) :
    x.bind f s = f a s' := by
  unfold bind
  rw [h]

theorem bind_eq_ok {x : DeM α} {f : α → DeM β} {s s'' : DeState} {b : β} :
    x.bind f s = (.ok b, s'') ↔ ∃ a s', x s = (.ok a, s') ∧ f a s' = (.ok b, s'') := by
  unfold bind
  rcases hx : x s with ⟨a | e | _ | _, s'⟩
  · constructor
    · intro h; exact ⟨a, s', rfl, h⟩
    · rintro ⟨a', s1, h, h'⟩
      simp only [Prod.mk.injEq, Out.ok.injEq] at h
      obtain ⟨rfl, rfl⟩ := h
      exact h'
  all_goals simp

theorem bind_assoc (x : DeM α) (f : α → DeM β) (g : β → DeM γ) :
    (x.bind f).bind g = x.bind fun a => (f a).bind g := by
  funext s
  unfold bind
  rcases x s with ⟨a | e | _ | _, s'⟩ <;> rfl

@[simp] theorem pure_bind (a : α) (f : α → DeM β) : (pure a).bind f = f a := rfl

theorem read_eq_ok {f : DeState → Out DeError α} {s s' : DeState} {a : α} :
    read f s = (.ok a, s') ↔ f s = .ok a ∧ s' = s := by
  simp [read, eq_comm (a := s)]

/-- Every run of `x` satisfies the transition relation `P`, whatever the outcome. -/
def Pres (P : DeState → DeState → Prop) (x : DeM α) : Prop := ∀ s, P s (x s).2

theorem Pres.bind {P : DeState → DeState → Prop} (htrans : ∀ a b c, P a b → P b c → P a c) {x : DeM α}
    {f : α → DeM β} (hx : x.Pres P) (hf : ∀ a, (f a).Pres P) : (x.bind f).Pres P := by
  intro s
  have h1 := hx s
  unfold DeM.bind
  rcases h : x s with ⟨a | e | _ | _, s'⟩ <;> rw [h] at h1
  · exact htrans _ _ _ h1 (hf a s')
  all_goals exact h1

end DeM

namespace Dehydrate

/-- The anonymous resources `from, from + 1, …`. -/
def freshList (start k : Nat) : List IRes := (List.range' start k).map .anon

theorem newResources_eq (k : Nat) (s : DeState) :
    newResources k s = (.ok (freshList s.fresh k), { s with fresh := s.fresh + k }) := by
  induction k generalizing s with
  | zero => rfl
  | succ k ih =>
    unfold newResources
    rw [DeM.bind_ok (s' := { s with fresh := s.fresh + 1 }) (a := IRes.anon s.fresh) (x := newResource) (s := s) rfl, DeM.bind_ok (ih _)]
    simp only [DeM.pure, freshList, List.range'_succ, List.map_cons]
    congr 2
    omega

theorem intro_eq (env : Env IRes) (k : Nat) (s : DeState) :
    intro env k s = (.ok (.child env (freshList s.fresh k)), { s with fresh := s.fresh + k }) := by
  unfold intro
  rw [DeM.bind_ok (newResources_eq k s)]
  rfl

theorem intro_bind {β : Type} (env : Env IRes) (k : Nat) (f : Env IRes → DeM β) (s : DeState) :
    (intro env k).bind f s = f (.child env (freshList s.fresh k)) { s with fresh := s.fresh + k } :=
  DeM.bind_ok (intro_eq env k s)

theorem length_freshList (start k : Nat) : (freshList start k).length = k := by simp [freshList]

theorem mem_freshList {start k : Nat} {r : IRes} : r ∈ freshList start k ↔ ∃ i, r = .anon i ∧ start ≤ i ∧ i < start + k := by
  simp only [freshList, List.mem_map, List.mem_range'_1]
  constructor
  · rintro ⟨i, hi, rfl⟩; exact ⟨i, rfl, hi⟩
  · rintro ⟨i, rfl, hi⟩; exact ⟨i, hi, rfl⟩

theorem nodup_freshList (start k : Nat) : (freshList start k).Nodup := by
  refine List.Nodup.map (fun a b h => by simpa using h) List.nodup_range'

theorem mem_insertQuad {out : List (Quad IRes)} {q q' : Quad IRes} : q' ∈ insertQuad out q ↔ q' ∈ out ∨ q' = q := by
  unfold insertQuad
  split
  · rename_i h
    constructor
    · exact .inl
    · rintro (h' | rfl)
      · exact h'
      · exact h
  · simp

theorem prefix_insertQuad (out : List (Quad IRes)) (q : Quad IRes) : out <+: insertQuad out q := by
  unfold insertQuad
  split
  · exact List.prefix_refl _
  · exact List.prefix_append _ _

theorem nodup_insertQuad {out : List (Quad IRes)} {q : Quad IRes} (h : out.Nodup) : (insertQuad out q).Nodup := by
  unfold insertQuad
  split
  · exact h
  · rename_i hq
    rw [List.nodup_append]
    refine ⟨h, by simp, ?_⟩
    intro a ha b hb
    simp only [List.mem_singleton] at hb
    subst hb
    rintro rfl
    exact hq ha

theorem mem_foldl_insertQuad {out : List (Quad IRes)} {qs : List (Quad IRes)} {q : Quad IRes} :
    q ∈ qs.foldl insertQuad out ↔ q ∈ out ∨ q ∈ qs := by
  induction qs generalizing out with
  | nil => simp
  | cons a qs ih => simp only [List.foldl_cons, ih, mem_insertQuad, List.mem_cons, or_assoc]

theorem prefix_foldl_insertQuad (out : List (Quad IRes)) (qs : List (Quad IRes)) : out <+: qs.foldl insertQuad out := by
  induction qs generalizing out with
  | nil => exact List.prefix_refl _
  | cons a qs ih => exact (prefix_insertQuad out a).trans (ih _)

theorem nodup_foldl_insertQuad {out : List (Quad IRes)} {qs : List (Quad IRes)} (h : out.Nodup) :
    (qs.foldl insertQuad out).Nodup := by
  induction qs generalizing out with
  | nil => exact h
  | cons a qs ih => exact ih (nodup_insertQuad h)

/-! ## A generic induction principle for transition relations -/

/-- A transition relation that every elementary step satisfies. -/
structure StepRel (P : DeState → DeState → Prop) : Prop where
  refl : ∀ s, P s s
  trans : ∀ a b c, P a b → P b c → P a c
  fresh : ∀ s, P s { s with fresh := s.fresh + 1 }
  insert : ∀ s q, P s { s with out := insertQuad s.out q }
  assign : ∀ s r t, P s { s with terms := if (r, t) ∈ s.terms then s.terms else s.terms ++ [(r, t)] }

variable {P : DeState → DeState → Prop} (hP : StepRel P)

include hP

theorem pres_pure {α : Type} (a : α) : (DeM.pure a).Pres P := fun s => hP.refl s

theorem pres_read {α : Type} (f : DeState → Out DeError α) : (DeM.read f).Pres P := fun s => hP.refl s

theorem pres_fail {α : Type} (e : DeError) : (DeM.fail e : DeM α).Pres P := fun s => hP.refl s

theorem pres_bind {α β : Type} {x : DeM α} {f : α → DeM β} (hx : x.Pres P) (hf : ∀ a, (f a).Pres P) :
    (x.bind f).Pres P := hx.bind hP.trans hf

theorem pres_newResource : newResource.Pres P := fun s => hP.fresh s

theorem pres_newResources (k : Nat) : (newResources k).Pres P := by
  induction k with
  | zero => exact pres_pure hP _
  | succ k ih => exact pres_bind hP (pres_newResource hP) fun _ => pres_bind hP ih fun _ => pres_pure hP _

theorem pres_intro (env : Env IRes) (k : Nat) : (intro env k).Pres P :=
  pres_bind hP (pres_newResources hP k) fun _ => pres_pure hP _

theorem pres_instDataset (env : Env IRes) (qs : List (QuadPat Term)) : (instDataset env qs).Pres P := by
  induction qs with
  | nil => exact pres_pure hP _
  | cons q qs ih =>
    exact pres_bind hP (pres_read hP _) fun q => pres_bind hP (fun s => hP.insert s q) fun _ => ih

theorem pres_assign (r : IRes) (t : Term) : (assign r t).Pres P := fun s => hP.assign s r t

theorem pres_data (inputs : List IRes) (l : DataLayout Term) (lit : List String → Out DeError RdfLit) :
    (data inputs l lit).Pres P :=
  pres_bind hP (pres_intro hP _ _) fun _ => pres_bind hP (pres_instDataset hP _ _) fun _ =>
    pres_bind hP (pres_read hP _) fun _ => pres_bind hP (pres_read hP _) fun _ => pres_assign hP _ _

theorem pres_foldl (s : DeState) (qs : List (Quad IRes)) : P s { s with out := qs.foldl insertQuad s.out } := by
  induction qs generalizing s with
  | nil => exact hP.refl s
  | cons q qs ih => exact hP.trans _ _ _ (hP.insert s q) (ih { s with out := insertQuad s.out q })

theorem pres_subValue {rec : Rec} (hrec : ∀ v g ref ins, (rec v g ref ins).Pres P) (graph : Option IRes)
    (fmt : ValueFormat Term) (env : Env IRes) (v : Value) : (subValue rec graph fmt env v).Pres P :=
  pres_bind hP (pres_read hP _) fun _ => pres_bind hP (pres_read hP _) fun _ => hrec _ _ _ _

theorem pres_variants {rec : Rec} (hrec : ∀ v g ref ins, (rec v g ref ins).Pres P) (graph : Option IRes)
    (env : Env IRes) (v : Value) (vs : List (Variant Term)) (sel : Option (List (Quad IRes))) :
    (variants rec graph env v vs sel).Pres P := by
  induction vs generalizing sel with
  | nil =>
    cases sel with
    | none => exact pres_fail hP _
    | some quads => exact fun s => pres_foldl hP s quads
  | cons x vs ih =>
    refine pres_bind hP (pres_intro hP _ _) fun venv => pres_bind hP (pres_read hP _) fun quads => fun s => ?_
    have h1 := pres_subValue hP hrec graph x.value venv v s
    rcases h : subValue rec graph x.value venv v s with ⟨a | e | _ | _, s'⟩
    · rw [h] at h1
      cases sel with
      | some _ => exact h1
      | none => exact hP.trans _ _ _ h1 (ih (some quads) s')
    · rw [h] at h1
      exact hP.trans _ _ _ h1 (ih sel s')
    · rw [h] at h1; exact h1
    · rw [h] at h1; exact h1

theorem pres_entries {rec : Rec} (hrec : ∀ v g ref ins, (rec v g ref ins).Pres P) (graph : Option IRes)
    (env : Env IRes) (fields : List (Value × Field Term)) (m : List (Value × Value)) :
    (entries rec graph env fields m).Pres P := by
  induction m with
  | nil => exact pres_pure hP _
  | cons e m ih =>
    obtain ⟨key, v⟩ := e
    unfold entries
    split
    · exact pres_bind hP (pres_intro hP _ _) fun _ => pres_bind hP (pres_instDataset hP _ _) fun _ =>
        pres_bind hP (pres_subValue hP hrec _ _ _ _) fun _ => ih
    · exact pres_fail hP _

theorem pres_requireKeys (ref : Term) (m : List (Value × Value)) (fields : List (Value × Field Term)) :
    (requireKeys ref m fields).Pres P := by
  induction fields with
  | nil => exact pres_pure hP _
  | cons e fs ih =>
    obtain ⟨key, field⟩ := e
    unfold requireKeys
    split
    · exact pres_fail hP _
    · exact ih

theorem pres_items {rec : Rec} (hrec : ∀ v g ref ins, (rec v g ref ins).Pres P) (graph : Option IRes)
    (env : Env IRes) (item : ItemLayout Term) (vs : List Value) : (items rec graph env item vs).Pres P := by
  induction vs with
  | nil => exact pres_pure hP _
  | cons v vs ih =>
    exact pres_bind hP (pres_intro hP _ _) fun _ => pres_bind hP (pres_instDataset hP _ _) fun _ =>
      pres_bind hP (pres_subValue hP hrec _ _ _ _) fun _ => ih

theorem pres_nodes {rec : Rec} (hrec : ∀ v g ref ins, (rec v g ref ins).Pres P) (graph : Option IRes)
    (env : Env IRes) (node : ItemLayout Term) (tail : Pattern Term) (head : IRes) (vs : List Value) :
    (nodes rec graph env node tail head vs).Pres P := by
  induction vs generalizing head with
  | nil => exact pres_pure hP _
  | cons v vs ih =>
    refine pres_bind hP ?_ fun next => pres_bind hP (pres_intro hP _ _) fun _ =>
      pres_bind hP (pres_instDataset hP _ _) fun _ =>
      pres_bind hP (pres_subValue hP hrec _ _ _ _) fun _ => ih next
    split
    · exact pres_read hP _
    · exact pres_newResource hP

theorem pres_sizedItems {rec : Rec} (hrec : ∀ v g ref ins, (rec v g ref ins).Pres P) (graph : Option IRes)
    (env : Env IRes) (vs : List Value) (is : List (ItemLayout Term)) : (sizedItems rec graph env vs is).Pres P := by
  induction vs generalizing is with
  | nil =>
    cases is with
    | nil => exact pres_pure hP _
    | cons _ _ => exact pres_fail hP _
  | cons v vs ih =>
    cases is with
    | nil => exact pres_fail hP _
    | cons i is =>
      exact pres_bind hP (pres_intro hP _ _) fun _ => pres_bind hP (pres_instDataset hP _ _) fun _ =>
        pres_bind hP (pres_subValue hP hrec _ _ _ _) fun _ => ih is

theorem pres_layout (c : DeCtx) {rec : Rec} (hrec : ∀ v g ref ins, (rec v g ref ins).Pres P) (v : Value)
    (graph : Option IRes) (ref : Term) (inputs : List IRes) (l : Layout Term) :
    (layout c rec v graph ref inputs l).Pres P := by
  cases l with
  | never => exact pres_fail hP _
  | always => exact pres_pure hP _
  | unit l =>
    simp only [layout]
    split
    · exact pres_bind hP (pres_intro hP _ _) fun _ => pres_instDataset hP _ _
    · exact pres_fail hP _
  | boolean l =>
    simp only [layout]
    split
    · exact pres_data hP _ _ _
    · exact pres_fail hP _
  | number l =>
    simp only [layout]
    split
    · exact pres_data hP _ _ _
    · exact pres_fail hP _
  | byteString l =>
    simp only [layout]
    split
    · exact pres_data hP _ _ _
    · exact pres_fail hP _
  | textString l =>
    simp only [layout]
    split
    · exact pres_data hP _ _ _
    · exact pres_fail hP _
  | id l =>
    simp only [layout]
    split
    · refine pres_bind hP (pres_intro hP _ _) fun _ => pres_bind hP (pres_instDataset hP _ _) fun _ =>
        pres_bind hP (pres_read hP _) fun _ => ?_
      split
      · exact pres_assign hP _ _
      · exact pres_fail hP _
    · exact pres_fail hP _
  | sum l =>
    exact pres_bind hP (pres_intro hP _ _) fun _ => pres_bind hP (pres_instDataset hP _ _) fun _ =>
      pres_variants hP hrec _ _ _ _ _
  | product l =>
    simp only [layout]
    split
    · exact pres_bind hP (pres_intro hP _ _) fun _ => pres_bind hP (pres_instDataset hP _ _) fun _ =>
        pres_bind hP (pres_entries hP hrec _ _ _ _) fun _ => pres_requireKeys hP _ _ _
    · exact pres_fail hP _
  | unordered l =>
    simp only [layout]
    split
    · exact pres_bind hP (pres_intro hP _ _) fun _ => pres_bind hP (pres_instDataset hP _ _) fun _ =>
        pres_items hP hrec _ _ _ _
    · exact pres_fail hP _
  | ordered l =>
    simp only [layout]
    split
    · exact pres_bind hP (pres_intro hP _ _) fun _ => pres_bind hP (pres_instDataset hP _ _) fun _ =>
        pres_bind hP (pres_read hP _) fun _ => pres_nodes hP hrec _ _ _ _ _ _
    · exact pres_fail hP _
  | sized l =>
    simp only [layout]
    split
    · exact pres_bind hP (pres_intro hP _ _) fun _ => pres_bind hP (pres_instDataset hP _ _) fun _ =>
        pres_sizedItems hP hrec _ _ _ _
    · exact pres_fail hP _

/-- Every run satisfies every step relation. -/
theorem pres_dehydrateWith (c : DeCtx) (n : Nat) (v : Value) (graph : Option IRes) (ref : Term)
    (inputs : List IRes) : (dehydrateWith c n v graph ref inputs).Pres P := by
  induction n generalizing v graph ref inputs with
  | zero => exact fun s => hP.refl s
  | succ n ih =>
    unfold dehydrateWith
    split
    · exact pres_fail hP _
    · split
      · exact pres_fail hP _
      · exact pres_layout hP c ih _ _ _ _ _

end Dehydrate

end Verif
