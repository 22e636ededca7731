import Verif.RelabelSpec

/-!
# Dehydration with layouts under other identifiers

Helper lemmas for C102. No further code is modelled.
-/

set_option linter.unusedSectionVars false
set_option linter.unusedSimpArgs false

namespace Verif

/-- The second computation does what the first one does, but for the identifiers of layouts in errors. -/
def DeM.Same {α : Type} (f : Term → Term) (x y : DeM α) : Prop := ∀ s, y s = ((x s).1.mapErr (DeError.relabel f), (x s).2)

namespace DeM.Same

variable {α β : Type} {f : Term → Term}

theorem bind {x y : DeM α} {k k' : α → DeM β} (h : Same f x y) (hk : ∀ a, Same f (k a) (k' a)) : Same f (x.bind k) (y.bind k') := by
  intro s
  unfold DeM.bind
  rw [h s]
  rcases x s with ⟨a | e | _ | _, s'⟩
  · exact hk a s'
  · rfl
  · rfl
  · rfl

theorem pure (a : α) : Same f (.pure a) (.pure a) := fun _ => rfl

theorem modify (g : DeState → DeState) : Same f (.modify g) (.modify g) := fun _ => rfl

theorem fail (e : DeError) : Same f (.fail e : DeM α) (.fail (e.relabel f)) := fun _ => rfl

theorem read {g : DeState → Out DeError α} (h : ∀ s, (g s).mapErr (DeError.relabel f) = g s) : Same f (.read g) (.read g) := by
  intro s
  simp only [DeM.read, h]

end DeM.Same

namespace Dehydrate

variable {c : DeCtx} {f : Term → Term} {rec rec' : Rec} {g : Option IRes} {env : Env IRes} {v : Value}

theorem newResources_same (n : Nat) : DeM.Same f (newResources n) (newResources n) := by
  induction n with
  | zero => exact .pure _
  | succ n ih =>
    unfold newResources
    exact .bind (fun _ => rfl) fun r => ih.bind fun rs => .pure _

theorem intro_same (env : Env IRes) (n : Nat) : DeM.Same f (intro env n) (intro env n) :=
  (newResources_same n).bind fun _ => .pure _

/-- An outcome whose error does not mention a layout. -/
def Unlabelled (f : Term → Term) {α : Type} (o : Out DeError α) : Prop := o.mapErr (DeError.relabel f) = o

theorem Unlabelled.bind {α β : Type} {o : Out DeError α} {k : α → Out DeError β} (h : Unlabelled f o) (hk : ∀ a, Unlabelled f (k a)) :
    Unlabelled f (o.bind k) := by
  cases o with
  | ok a => exact hk a
  | err e =>
    simp only [Unlabelled, Out.mapErr, Out.err.injEq] at h
    simp only [Unlabelled, Out.bind, Out.mapErr, h]
  | panic => rfl
  | fuel => rfl

theorem instPattern_unlabelled (env : Env IRes) (p : Pattern Term) : Unlabelled f (instPattern env p) := by
  cases p with
  | var x =>
    unfold Unlabelled instPattern
    dsimp only
    cases env.get x <;> rfl
  | res t => rfl

theorem mapM_unlabelled {α β : Type} {k : α → Out DeError β} (hk : ∀ a, Unlabelled f (k a)) (l : List α) : Unlabelled f (Out.mapM' k l) := by
  induction l with
  | nil => rfl
  | cons a l ih =>
    unfold Out.mapM'
    exact (hk a).bind fun _ => ih.bind fun _ => rfl

theorem instQuad_unlabelled (env : Env IRes) (q : QuadPat Term) : Unlabelled f (instQuad env q) := by
  unfold instQuad
  refine (instPattern_unlabelled _ _).bind fun _ => (instPattern_unlabelled _ _).bind fun _ => (instPattern_unlabelled _ _).bind fun _ => ?_
  cases q.g with
  | none => rfl
  | some g => exact (instPattern_unlabelled _ _).bind fun _ => rfl

theorem instDataset_same (env : Env IRes) (qs : List (QuadPat Term)) : DeM.Same f (instDataset env qs) (instDataset env qs) := by
  induction qs with
  | nil => exact .pure _
  | cons q qs ih =>
    unfold instDataset
    exact (DeM.Same.read fun _ => instQuad_unlabelled _ _).bind fun _ => (DeM.Same.modify _).bind fun _ => ih

theorem data_same (inputs : List IRes) (l : DataLayout Term) {lit : List String → Out DeError RdfLit} (h : ∀ is, Unlabelled f (lit is)) :
    DeM.Same f (data inputs l lit) (data inputs l lit) :=
  (intro_same _ _).bind fun _ => (instDataset_same _ _).bind fun _ => (DeM.Same.read fun _ => instPattern_unlabelled _ _).bind fun _ =>
    (DeM.Same.read fun _ => h _).bind fun _ => .modify _

theorem ident_same (inputs : List IRes) (l : IdLayout Term) (t : String) : DeM.Same f (ident c inputs l t) (ident c inputs l t) := by
  refine (intro_same _ _).bind fun _ => (instDataset_same _ _).bind fun _ => (DeM.Same.read fun _ => instPattern_unlabelled _ _).bind fun _ => ?_
  split
  · exact .modify _
  · exact .fail .incompatibleLayout

variable (hrec : ∀ v g r i, DeM.Same f (rec v g r i) (rec' v g (f r) i))

include hrec

theorem subValue_same (fmt : ValueFormat Term) (env : Env IRes) (v : Value) :
    DeM.Same f (subValue rec g fmt env v) (subValue rec' g (fmt.relabel f) env v) := by
  unfold subValue
  refine (DeM.Same.read fun _ => mapM_unlabelled (instPattern_unlabelled _) _).bind fun ins => (DeM.Same.read fun _ => ?_).bind fun g => hrec _ _ _ _
  change Unlabelled f (match fmt.graph with | some none => _ | some (some g) => _ | none => _)
  split
  · rfl
  · rename_i p _
    have := instPattern_unlabelled (f := f) env p
    revert this
    cases instPattern env p with
    | err e =>
      intro h
      simp only [Unlabelled, Out.mapErr, Out.err.injEq] at h
      simp only [Unlabelled, Out.map, Out.mapErr, h]
    | _ => intro _; rfl
  · rfl

theorem variants_same (vs : List (Variant Term)) (sel : Option (List (Quad IRes))) :
    DeM.Same f (variants rec g env v vs sel) (variants rec' g env v (vs.map (Variant.relabel f)) sel) := by
  induction vs generalizing sel with
  | nil =>
    cases sel with
    | none => exact .fail .incompatibleLayout
    | some q => exact .modify _
  | cons x vs ih =>
    rw [List.map_cons]
    unfold variants
    refine (intro_same _ _).bind fun venv => (DeM.Same.read fun _ => mapM_unlabelled (instQuad_unlabelled _) _).bind fun quads => ?_
    intro s
    have h := subValue_same (g := g) hrec x.value venv v s
    change (match subValue rec' g (x.value.relabel f) venv v s with
      | (.ok _, s') => _ | (.err _, s') => _ | (.panic, s') => _ | (.fuel, s') => _) = _
    rw [h]
    dsimp only
    rcases subValue rec g x.value venv v s with ⟨a | e | _ | _, s'⟩
    · cases sel with
      | none => exact ih _ s'
      | some q => rfl
    · exact ih _ s'
    · rfl
    · rfl

omit hrec in
theorem lookup_relabel (k : Value) (fs : List (Value × Field Term)) :
    lookup k (fs.map fun x => (x.1, x.2.relabel f)) = (lookup k fs).map (Field.relabel f) := by
  unfold lookup
  rw [List.find?_map]
  simp only [Function.comp_def, Option.map_map]

theorem entries_same (fs : List (Value × Field Term)) (m : List (Value × Value)) :
    DeM.Same f (entries rec g env fs m) (entries rec' g env (fs.map fun x => (x.1, x.2.relabel f)) m) := by
  induction m with
  | nil => exact .pure _
  | cons e m ih =>
    obtain ⟨k, w⟩ := e
    unfold entries
    rw [lookup_relabel]
    cases lookup k fs with
    | none => exact .fail .incompatibleLayout
    | some x =>
      exact (intro_same _ _).bind fun _ => (instDataset_same _ _).bind fun _ => (subValue_same hrec x.value _ _).bind fun _ => ih

omit hrec in
theorem requireKeys_same (ref : Term) (m : List (Value × Value)) (fs : List (Value × Field Term)) :
    DeM.Same f (requireKeys ref m fs) (requireKeys (f ref) m (fs.map fun x => (x.1, x.2.relabel f))) := by
  induction fs with
  | nil => exact .pure _
  | cons e fs ih =>
    obtain ⟨k, x⟩ := e
    rw [List.map_cons]
    unfold requireKeys
    change DeM.Same f _ (if (x.required && !(m.any fun e => e.1 == k)) = true then _ else _)
    split
    · exact .fail (.missingRequiredKey ref k m)
    · exact ih

theorem items_same (item : ItemLayout Term) (vs : List Value) :
    DeM.Same f (items rec g env item vs) (items rec' g env (item.relabel f) vs) := by
  induction vs with
  | nil => exact .pure _
  | cons w vs ih =>
    unfold items
    exact (intro_same _ _).bind fun _ => (instDataset_same _ _).bind fun _ => (subValue_same hrec item.value _ _).bind fun _ => ih

theorem nodes_same (node : ItemLayout Term) (tail : Pattern Term) (head : IRes) (vs : List Value) :
    DeM.Same f (nodes rec g env node tail head vs) (nodes rec' g env (node.relabel f) tail head vs) := by
  induction vs generalizing head with
  | nil => exact .pure _
  | cons w vs ih =>
    unfold nodes
    refine DeM.Same.bind ?_ fun next => (intro_same _ _).bind fun _ => (instDataset_same _ _).bind fun _ =>
      (subValue_same hrec node.value _ _).bind fun _ => ih next
    split
    · exact .read fun _ => instPattern_unlabelled _ _
    · exact fun _ => rfl

theorem sizedItems_same (vs : List Value) (is : List (ItemLayout Term)) :
    DeM.Same f (sizedItems rec g env vs is) (sizedItems rec' g env vs (is.map (ItemLayout.relabel f))) := by
  induction vs generalizing is with
  | nil =>
    cases is with
    | nil => exact .pure _
    | cons i is => exact .fail .incompatibleLayout
  | cons w vs ih =>
    cases is with
    | nil => exact .fail .incompatibleLayout
    | cons i is =>
      rw [List.map_cons]
      unfold sizedItems
      exact (intro_same _ _).bind fun _ => (instDataset_same _ _).bind fun _ => (subValue_same hrec i.value _ _).bind fun _ => ih is

theorem layout_same (ref : Term) (inputs : List IRes) (l : Layout Term) :
    DeM.Same f (layout c rec v g ref inputs l) (layout c rec' v g (f ref) inputs (l.relabel f)) := by
  have hno : ∀ {α : Type}, DeM.Same f (.fail .incompatibleLayout : DeM α) (.fail .incompatibleLayout) := .fail .incompatibleLayout
  cases l with
  | never => exact hno
  | always => exact .pure _
  | unit l =>
    simp only [layout, Layout.relabel]
    split
    · exact (intro_same _ _).bind fun _ => instDataset_same _ _
    · exact hno
  | boolean l =>
    simp only [layout, Layout.relabel]
    split
    · refine data_same _ _ fun is => ?_
      unfold booleanLit
      split <;> rfl
    · exact hno
  | number l =>
    simp only [layout, Layout.relabel]
    split
    · refine data_same _ _ fun is => ?_
      unfold numberLit
      split
      · split <;> rfl
      · rfl
    · exact hno
  | byteString l =>
    simp only [layout, Layout.relabel]
    split
    · exact data_same _ _ fun is => rfl
    · exact hno
  | textString l =>
    simp only [layout, Layout.relabel]
    split
    · refine data_same _ _ fun is => ?_
      unfold textLit
      split <;> rfl
    · exact hno
  | id l =>
    simp only [layout, Layout.relabel]
    split
    · exact ident_same _ _ _
    · exact hno
  | sum l =>
    simp only [layout, Layout.relabel]
    exact (intro_same _ _).bind fun _ => (instDataset_same _ _).bind fun _ => variants_same hrec _ _
  | product l =>
    simp only [layout, Layout.relabel]
    split
    · exact (intro_same _ _).bind fun _ => (instDataset_same _ _).bind fun _ => (entries_same hrec _ _).bind fun _ =>
        requireKeys_same _ _ _
    · exact hno
  | unordered l =>
    simp only [layout, Layout.relabel]
    split
    · exact (intro_same _ _).bind fun _ => (instDataset_same _ _).bind fun _ => items_same hrec _ _
    · exact hno
  | ordered l =>
    simp only [layout, Layout.relabel]
    split
    · exact (intro_same _ _).bind fun _ => (instDataset_same _ _).bind fun _ =>
        (DeM.Same.read fun _ => instPattern_unlabelled _ _).bind fun _ => nodes_same hrec _ _ _ _
    · exact hno
  | sized l =>
    simp only [layout, Layout.relabel]
    split
    · exact (intro_same _ _).bind fun _ => (instDataset_same _ _).bind fun _ => sizedItems_same hrec _ _
    · exact hno

omit hrec in
theorem dehydrateWith_same {reg' : Registry Term} (hreg : c.reg.Relabels f reg') (n : Nat) (v : Value) (g : Option IRes) (ref : Term)
    (inputs : List IRes) :
    DeM.Same f (dehydrateWith c n v g ref inputs) (dehydrateWith { c with reg := reg' } n v g (f ref) inputs) := by
  induction n generalizing v g ref inputs with
  | zero => exact fun _ => rfl
  | succ n ih =>
    unfold dehydrateWith
    dsimp only
    rw [hreg ref]
    cases h : c.reg ref with
    | none => exact .fail (.layoutNotFound ref)
    | some l =>
      dsimp only [Option.map_some]
      have hc : (l.relabel f).inputCount = l.inputCount := by cases l <;> rfl
      rw [hc]
      split
      · exact .fail (.invalidInputCount _ _)
      · have h := layout_same (c := c) (v := v) (g := g) ih ref inputs l
        have he : ∀ (rec : Rec) l, layout { c with reg := reg' } rec v g (f ref) inputs l = layout c rec v g (f ref) inputs l := by
          intro rec l
          cases l <;> rfl
        rw [he]
        exact h

omit hrec in
theorem dehydrate_relabel {reg' : Registry Term} (hreg : c.reg.Relabels f reg') (n : Nat) (v : Value) (ref : Term) (o : DeOptions) :
    dehydrate { c with reg := reg' } n v (f ref) o = (dehydrate c n v ref o).mapErr (DeError.relabel f) := by
  unfold dehydrate
  dsimp only
  rw [hreg ref]
  cases h : c.reg ref with
  | none => rfl
  | some l =>
    dsimp only [Option.map_some]
    have hc : (l.relabel f).inputCount = l.inputCount := by cases l <;> rfl
    rw [hc, dehydrateWith_same hreg n v none ref _ _]
    rcases dehydrateWith c n v none ref ((List.range (l.inputCount.getD (o.inputCount.getD 1))).map .input) ⟨[], [], 0⟩ with
      ⟨a | e | _ | _, s⟩
    · dsimp only [Out.mapErr]
      split <;> rfl
    · rfl
    · rfl
    · rfl

end Dehydrate

end Verif
