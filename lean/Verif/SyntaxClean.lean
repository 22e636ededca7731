import Verif.SyntaxLemmas

/-!
# Compilation does not panic, except on unions and intersections
-/

set_option linter.unusedSectionVars false
set_option linter.unusedSimpArgs false

namespace Verif

variable {R : Type} [DecidableEq R]

/-- The outcome is a value or an error. -/
def Clean {α : Type} (x : Out BuildError α) : Prop := x ≠ .panic ∧ x ≠ .fuel

/-- The outcome of the computation is a value or an error. -/
def CleanM {α : Type} (x : BuildM R α) : Prop := ∀ b, Clean (x b).1

theorem Clean.ok {α : Type} {a : α} : Clean (.ok a) := by simp [Clean]

theorem Clean.err {α : Type} {e : BuildError} : Clean (.err e : Out BuildError α) := by simp [Clean]

theorem Clean.bind {α β : Type} {x : Out BuildError α} {f : α → Out BuildError β} (hx : Clean x) (hf : ∀ a, Clean (f a)) :
    Clean (x.bind f) := by
  cases x with
  | ok a => exact hf a
  | err e => exact .err
  | panic => simp [Clean] at hx
  | fuel => simp [Clean] at hx

theorem CleanM.pure {α : Type} {a : α} : CleanM (BuildM.pure a : BuildM R α) := fun _ => .ok

theorem CleanM.lift {α : Type} {x : Out BuildError α} (h : Clean x) : CleanM (BuildM.lift x : BuildM R α) := fun _ => h

theorem CleanM.bind {α β : Type} {x : BuildM R α} {f : α → BuildM R β} (hx : CleanM x) (hf : ∀ a, CleanM (f a)) :
    CleanM (x.bind f) := by
  intro b
  have h := hx b
  unfold BuildM.bind
  rcases hxb : x b with ⟨o, b'⟩
  rw [hxb] at h
  cases o with
  | ok a => exact hf a b'
  | err e => exact .err
  | panic => simp [Clean] at h
  | fuel => simp [Clean] at h

theorem CleanM.lift_bind {α β : Type} {x : Out BuildError α} {f : α → BuildM R β} (h : Clean x)
    (hf : ∀ a, CleanM (f a)) : CleanM ((BuildM.lift x).bind f) := (CleanM.lift h).bind hf

theorem clean_resolve (lib : IriLib) (s : Scope) (i : CompactIri) : Clean (CompactIri.resolve lib s i) := by
  unfold CompactIri.resolve Clean
  split
  · split
    · dsimp only
      split <;> simp
    · simp
  · split <;> simp

theorem clean_index (s : Scope) (x : String) : Clean (s.index x) := by
  unfold Scope.index Clean
  split <;> simp

theorem clean_pattern (c : BuildCtx R) (s : Scope) (p : SPattern) : Clean (p.build c s) := by
  cases p with
  | var x => exact (clean_index _ _).bind fun _ => .ok
  | iri i => exact (clean_resolve _ _ _).bind fun _ => .ok
  | literal v ty =>
    refine Clean.bind ?_ fun _ => .ok
    cases ty with
    | iri i => exact (clean_resolve _ _ _).bind fun _ => .ok
    | language t => exact .ok

theorem clean_quad (c : BuildCtx R) (s : Scope) (q : Quad SPattern) : Clean (SQuad.build c s q) := by
  refine (clean_pattern _ _ _).bind fun _ => (clean_pattern _ _ _).bind fun _ => (clean_pattern _ _ _).bind fun _ =>
    Clean.bind ?_ fun _ => .ok
  cases q.g with
  | none => exact .ok
  | some g => exact (clean_pattern _ _ _).bind fun _ => .ok

theorem clean_dataset (c : BuildCtx R) (s : Scope) (ds : List (Quad SPattern)) (acc : List (QuadPat R)) :
    Clean (SDataset.build c s ds acc) := by
  induction ds generalizing acc with
  | nil => exact .ok
  | cons q ds ih => exact (clean_quad _ _ _).bind fun _ => ih _

theorem clean_iri (c : BuildCtx R) (s : Scope) (i : CompactIri) : Clean (CompactIri.build c s i) :=
  (clean_resolve _ _ _).bind fun _ => .ok

theorem clean_extra (c : BuildCtx R) (s : Scope) (es : List (CompactIri × SResource)) (acc : List (R × R)) :
    Clean (buildExtra c s es acc) := by
  induction es generalizing acc with
  | nil => exact .ok
  | cons e es ih =>
    refine (clean_iri _ _ _).bind fun _ => Clean.bind ?_ fun _ => ih _
    cases e.2 with
    | typed v ty => exact (clean_resolve _ _ _).bind fun _ => .ok
    | _ => exact .ok

theorem clean_newPrefixes (lib : IriLib) (s : Scope) (ps : List (String × CompactIri)) (acc : List (String × String)) :
    Clean (s.newPrefixes lib ps acc) := by
  induction ps generalizing acc with
  | nil => exact .ok
  | cons e es ih => exact (clean_resolve _ _ _).bind fun _ => ih _

theorem clean_header (c : BuildCtx R) (s : Scope) (h : LayoutHeader) : Clean (h.build c s) := by
  refine Clean.bind (Clean.bind ?_ fun _ => (clean_newPrefixes _ _ _ _).bind fun _ => .ok) fun _ =>
    (clean_dataset _ _ _ _).bind fun _ => (clean_extra _ _ _ _).bind fun _ => .ok
  cases h.base with
  | none => exact .ok
  | some b => exact (clean_resolve _ _ _).bind fun _ => .ok

theorem clean_literalResource (c : BuildCtx R) (s : Scope) (i : OneOrMany String) (r : Option SPattern) :
    Clean (literalResource c s i r) := by
  cases r with
  | some p => exact clean_pattern _ _ _
  | none =>
    unfold literalResource Clean
    dsimp only
    split <;> simp

theorem clean_datatype (c : BuildCtx R) (s : Scope) (d : String) (i : Option CompactIri) : Clean (buildDatatype c s d i) := by
  cases i with
  | some i => exact clean_iri _ _ _
  | none => exact .ok

theorem clean_inputs (c : BuildCtx R) (s : Scope) (l : List SPattern) : Clean (buildInputs c s l) := by
  unfold buildInputs
  induction l with
  | nil => exact .ok
  | cons p l ih => exact (clean_pattern _ _ _).bind fun _ => ih.bind fun _ => .ok

theorem clean_graph (c : BuildCtx R) (s : Scope) (g : Option (Option SPattern)) : Clean (buildGraph c s g) := by
  match g with
  | none => exact .ok
  | some none => exact .ok
  | some (some p) => exact (clean_pattern _ _ _).bind fun _ => .ok

theorem clean_propDataset (c : BuildCtx R) (s : Scope) (a b : Option Nat) (ds : List (Quad SPattern)) (p : Option SPattern) :
    Clean (buildPropDataset c s a b ds p) := by
  cases p with
  | none => exact clean_dataset _ _ _ _
  | some p =>
    refine (clean_dataset _ _ _ _).bind fun _ => ?_
    cases a with
    | none => exact .err
    | some a =>
      cases b with
      | none => exact .err
      | some b => exact (clean_pattern _ _ _).bind fun _ => .ok

theorem clean_nodeDataset (c : BuildCtx R) (s : Scope) (a b : Nat) (v : SFormat) (ds : Option (List (Quad SPattern))) :
    Clean (nodeDataset c s a b v ds) := by
  cases ds with
  | some ds => cases v <;> exact clean_dataset _ _ _ _
  | none =>
    cases v with
    | format l input graph =>
      unfold nodeDataset
      split
      · rename_i ha hb
        cases hb
      · rename_i ha hb
        cases ha
        split
        · exact (clean_pattern _ _ _).bind fun _ => .ok
        · exact .ok
      · rename_i ha hb
        cases ha
    | layout l => exact (clean_index _ _).bind fun _ => .ok

theorem define_clean {c : BuildCtx R} {s : Scope} {id : Option CompactIri} {body : BuildM R (Entry R)} (hb : CleanM body) :
    CleanM (defineLayout c s id body) := by
  refine CleanM.bind ?_ fun r => hb.bind fun e => ?_
  · cases id with
    | some i => exact .lift (clean_iri _ _ _)
    | none => exact fun _ => .ok
  · intro b
    unfold insertLayout
    dsimp only
    split
    · exact .err
    · exact .ok

mutual
theorem body_clean (c : BuildCtx R) : ∀ (l : SLayout) (s : Scope), l.setOp = false → CleanM (l.buildBody c s)
  | .unit h k, s, hu => by
    simp only [SLayout.buildBody]
    exact .lift_bind (clean_header _ _ _) fun b => .pure
  | .boolean h r dt, s, hu => by
    simp only [SLayout.buildBody]
    exact .lift_bind (clean_header _ _ _) fun b => .lift_bind (clean_literalResource _ _ _ _) fun r =>
      .lift_bind (clean_datatype _ _ _ _) fun dt => .pure
  | .number h r dt, s, hu => by
    simp only [SLayout.buildBody]
    exact .lift_bind (clean_header _ _ _) fun b => .lift_bind (clean_literalResource _ _ _ _) fun r =>
      .lift_bind (clean_iri _ _ _) fun dt => .pure
  | .byteString h r dt, s, hu => by
    simp only [SLayout.buildBody]
    exact .lift_bind (clean_header _ _ _) fun b => .lift_bind (clean_literalResource _ _ _ _) fun r =>
      .lift_bind (clean_iri _ _ _) fun dt => .pure
  | .textString h p r dt, s, hu => by
    simp only [SLayout.buildBody]
    exact .lift_bind (clean_header _ _ _) fun b => .lift_bind (clean_literalResource _ _ _ _) fun r =>
      .lift_bind (clean_datatype _ _ _ _) fun dt => .pure
  | .id h p r, s, hu => by
    simp only [SLayout.buildBody]
    exact .lift_bind (clean_header _ _ _) fun b => .lift_bind (clean_literalResource _ _ _ _) fun r => .pure
  | .product h fields, s, hu => by
    simp only [SLayout.buildBody]
    have hu' := hu
    simp only [SLayout.setOp, SLayoutRef.setOp, SFormat.setOp, SField.setOp, SVariant.setOp, SItem.setOp, SNode.setOp] at hu'
    refine .lift_bind (clean_header _ _ _) fun b => .bind ?_ fun fs => .pure
    exact fields_clean c _ _ fields _ hu'
  | .sum h variants, s, hu => by
    simp only [SLayout.buildBody]
    have hu' := hu
    simp only [SLayout.setOp, SLayoutRef.setOp, SFormat.setOp, SField.setOp, SVariant.setOp, SItem.setOp, SNode.setOp] at hu'
    refine .lift_bind (clean_header _ _ _) fun b => .bind ?_ fun fs => .pure
    exact variants_clean c variants _ hu'
  | .ordered h node head tail, s, hu => by
    simp only [SLayout.buildBody]
    have hu' := hu
    simp only [SLayout.setOp, SLayoutRef.setOp, SFormat.setOp, SField.setOp, SVariant.setOp, SItem.setOp, SNode.setOp] at hu'
    refine .lift_bind (clean_header _ _ _) fun b => .bind ?_ fun fs => .lift_bind (clean_pattern _ _ _) fun hd =>
      .lift_bind (clean_pattern _ _ _) fun tl => .pure
    exact node_clean c node _ hu'
  | .unordered h item, s, hu => by
    simp only [SLayout.buildBody]
    have hu' := hu
    simp only [SLayout.setOp, SLayoutRef.setOp, SFormat.setOp, SField.setOp, SVariant.setOp, SItem.setOp, SNode.setOp] at hu'
    refine .lift_bind (clean_header _ _ _) fun b => .bind ?_ fun fs => .pure
    exact item_clean c _ item _ hu'
  | .sized h items, s, hu => by
    simp only [SLayout.buildBody]
    have hu' := hu
    simp only [SLayout.setOp, SLayoutRef.setOp, SFormat.setOp, SField.setOp, SVariant.setOp, SItem.setOp, SNode.setOp] at hu'
    refine .lift_bind (clean_header _ _ _) fun b => .bind ?_ fun fs => .pure
    exact items_clean c _ items _ hu'
  | .bool true, s, hu => by
    simp only [SLayout.buildBody]
    exact .pure
  | .bool false, s, hu => by
    simp only [SLayout.buildBody]
    exact .pure
  | .union h, s, hu => by
    simp only [SLayout.buildBody]
    simp [SLayout.setOp] at hu
  | .intersection h, s, hu => by
    simp only [SLayout.buildBody]
    simp [SLayout.setOp] at hu

theorem ref_clean (c : BuildCtx R) : ∀ (l : SLayoutRef) (s : Scope), l.setOp = false → CleanM (l.build c s)
  | .ref i, s, hu => by
    simp only [SLayoutRef.build]
    exact .lift (clean_iri _ _ _)
  | .layout l, s, hu => by
    simp only [SLayoutRef.build]
    have hu' := hu
    simp only [SLayout.setOp, SLayoutRef.setOp, SFormat.setOp, SField.setOp, SVariant.setOp, SItem.setOp, SNode.setOp] at hu'
    exact define_clean (body_clean c l _ hu')

theorem format_clean (c : BuildCtx R) (default : String) : ∀ (f : SFormat) (s : Scope), f.setOp = false → CleanM (f.build c default s)
  | .format l input graph, s, hu => by
    simp only [SFormat.build]
    have hu' := hu
    simp only [SLayout.setOp, SLayoutRef.setOp, SFormat.setOp, SField.setOp, SVariant.setOp, SItem.setOp, SNode.setOp] at hu'
    exact .lift_bind (clean_inputs _ _ _) fun is => .bind (ref_clean c l s hu') fun r => .lift_bind (clean_graph _ _ _) fun g => .pure
  | .layout l, s, hu => by
    simp only [SFormat.build]
    have hu' := hu
    simp only [SLayout.setOp, SLayoutRef.setOp, SFormat.setOp, SField.setOp, SVariant.setOp, SItem.setOp, SNode.setOp] at hu'
    exact .bind (ref_clean c l s hu') fun r => .lift_bind (clean_pattern _ _ _) fun p => .pure

theorem fields_clean (c : BuildCtx R) (subject : Option Nat) (count : Nat) : ∀ (fs : List (Value × SField)) (s : Scope),
    fieldsSetOp fs = false → CleanM (buildFields c subject count fs s)
  | [], s, hu => by
    simp only [buildFields]
    exact .pure
  | (name, f) :: fs, s, hu => by
    simp only [buildFields]
    simp only [fieldsSetOp, variantsSetOp, itemsSetOp, Bool.or_eq_false_iff] at hu
    obtain ⟨hu1, hu2⟩ := hu
    exact .bind (field_clean c subject count f s hu1) fun f' =>
      .bind (fields_clean c subject count fs s hu2) fun fs' => .pure

theorem field_clean (c : BuildCtx R) (subject : Option Nat) (count : Nat) : ∀ (f : SField) (s : Scope),
    f.setOp = false → CleanM (f.build c subject count s)
  | .mk intro value ds property required, s, hu => by
    simp only [SField.build]
    have hu' := hu
    simp only [SLayout.setOp, SLayoutRef.setOp, SFormat.setOp, SField.setOp, SVariant.setOp, SItem.setOp, SNode.setOp] at hu'
    exact .lift_bind (clean_propDataset _ _ _ _ _ _) fun ds' => .bind (format_clean c _ value _ hu') fun v => .pure

theorem variants_clean (c : BuildCtx R) : ∀ (vs : List (String × SVariant)) (s : Scope),
    variantsSetOp vs = false → CleanM (buildVariants c vs s)
  | [], s, hu => by
    simp only [buildVariants]
    exact .pure
  | (name, v) :: vs, s, hu => by
    simp only [buildVariants]
    simp only [fieldsSetOp, variantsSetOp, itemsSetOp, Bool.or_eq_false_iff] at hu
    obtain ⟨hu1, hu2⟩ := hu
    exact .bind (variant_clean c name v s hu1) fun f' =>
      .bind (variants_clean c vs s hu2) fun fs' => .pure

theorem variant_clean (c : BuildCtx R) (name : String) : ∀ (v : SVariant) (s : Scope), v.setOp = false → CleanM (v.build c name s)
  | .mk intro value ds, s, hu => by
    simp only [SVariant.build]
    have hu' := hu
    simp only [SLayout.setOp, SLayoutRef.setOp, SFormat.setOp, SField.setOp, SVariant.setOp, SItem.setOp, SNode.setOp] at hu'
    exact .bind (format_clean c _ value _ hu') fun v => .lift_bind (clean_dataset _ _ _ _) fun ds' => .pure

theorem items_clean (c : BuildCtx R) (subject : Option Nat) : ∀ (is : List SItem) (s : Scope),
    itemsSetOp is = false → CleanM (buildItems c subject is s)
  | [], s, hu => by
    simp only [buildItems]
    exact .pure
  | i :: is, s, hu => by
    simp only [buildItems]
    simp only [fieldsSetOp, variantsSetOp, itemsSetOp, Bool.or_eq_false_iff] at hu
    obtain ⟨hu1, hu2⟩ := hu
    exact .bind (item_clean c subject i s hu1) fun f' =>
      .bind (items_clean c subject is s hu2) fun fs' => .pure

theorem item_clean (c : BuildCtx R) (subject : Option Nat) : ∀ (i : SItem) (s : Scope), i.setOp = false → CleanM (i.build c subject s)
  | .mk intro value ds property, s, hu => by
    simp only [SItem.build]
    have hu' := hu
    simp only [SLayout.setOp, SLayoutRef.setOp, SFormat.setOp, SField.setOp, SVariant.setOp, SItem.setOp, SNode.setOp] at hu'
    exact .lift_bind (clean_propDataset _ _ _ _ _ _) fun ds' => .bind (format_clean c _ value _ hu') fun v => .pure

theorem node_clean (c : BuildCtx R) : ∀ (n : SNode) (s : Scope), n.setOp = false → CleanM (n.build c s)
  | .node head rest intro value ds, s, hu => by
    simp only [SNode.build]
    have hu' := hu
    simp only [SLayout.setOp, SLayoutRef.setOp, SFormat.setOp, SField.setOp, SVariant.setOp, SItem.setOp, SNode.setOp] at hu'
    exact .bind (format_clean c _ value _ hu') fun v => .lift_bind (clean_nodeDataset _ _ _ _ _ _) fun ds' => .pure
  | .layout r, s, hu => by
    simp only [SNode.build]
    have hu' := hu
    simp only [SLayout.setOp, SLayoutRef.setOp, SFormat.setOp, SField.setOp, SVariant.setOp, SItem.setOp, SNode.setOp] at hu'
    exact .bind (ref_clean c r s hu') fun r' => .pure
end

theorem build_clean (c : BuildCtx R) (l : SLayout) (s : Scope) : l.setOp = false → CleanM (l.build c s) := by
  intro hu
  exact define_clean (body_clean c l _ hu)

end Verif
