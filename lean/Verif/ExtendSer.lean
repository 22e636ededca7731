import Verif.ExtendSpec
import Verif.RelaxDe

/-!
# Derived serialization with fewer required fields, or with more optional fields

Helper lemmas for C103 and C104. No further code is modelled.
-/

set_option linter.unusedSectionVars false
set_option linter.unusedSimpArgs false

namespace Verif.Derived

variable {c : SeCtx} {rec rec' : SRec} {g : Option IRes} {env : Env IRes}

/-! ## Fewer required fields -/

section

variable (hrec : ∀ v g r i, DeM.Leads (rec v g r i) (rec' v g r i))

include hrec

theorem writeItem_leads (k : Nat) (dataset : List (QuadPat Term)) (fmt : ValueFormat Term) (v : TypedValue Term) :
    DeM.Leads (writeItem rec g env k dataset fmt v) (writeItem rec' g env k dataset fmt v) :=
  .bindSame fun _ => .bindSame fun _ => .bindSame fun _ => .bindSame fun _ => hrec _ _ _ _

theorem writeFields_relax {fs fs' : List (Value × Field Term)} (h : List.Forall₂ (fun a b => a.1 = b.1 ∧ a.2.Relaxed b.2) fs fs')
    (m : List (Value × TypedValue Term)) : DeM.Leads (writeFields rec g env m fs) (writeFields rec' g env m fs') := by
  induction h with
  | nil => exact .same _
  | @cons a b fs fs' hab _ ih =>
    obtain ⟨k, x⟩ := a
    obtain ⟨k', y⟩ := b
    obtain ⟨hk, h1, h2, h3, h4⟩ := hab
    dsimp only at hk h1 h2 h3 h4
    subst hk
    unfold writeFields
    rw [h1, h2, h3]
    cases m.find? (fun e => e.1 == k) with
    | some e => exact (writeItem_leads hrec _ _ _ _).bind fun _ => ih
    | none =>
      dsimp only
      cases hx : x.required with
      | true => intro s a s' hs; exact nomatch hs
      | false =>
        cases hy : y.required with
        | true => rw [h4 hy] at hx; exact nomatch hx
        | false => simpa using ih

theorem writeItems_leads (item : ItemLayout Term) (vs : List (TypedValue Term)) :
    DeM.Leads (writeItems rec g env item vs) (writeItems rec' g env item vs) := by
  induction vs with
  | nil => exact .same _
  | cons w vs ih =>
    unfold writeItems
    exact (writeItem_leads hrec _ _ _ _).bind fun _ => ih

theorem writeNodes_leads (node : ItemLayout Term) (tail : Pattern Term) (head : IRes) (vs : List (TypedValue Term)) :
    DeM.Leads (writeNodes rec g env node tail head vs) (writeNodes rec' g env node tail head vs) := by
  induction vs generalizing head with
  | nil => exact .same _
  | cons w vs ih =>
    unfold writeNodes
    exact .bindSame fun next => (writeItem_leads hrec _ _ _ _).bind fun _ => ih next

theorem writeSized_leads (vs : List (TypedValue Term)) (is : List (ItemLayout Term)) :
    DeM.Leads (writeSized rec g env vs is) (writeSized rec' g env vs is) := by
  induction vs generalizing is with
  | nil => cases is <;> exact .same _
  | cons w vs ih =>
    cases is with
    | nil => exact .same _
    | cons i is =>
      unfold writeSized
      exact (writeItem_leads hrec _ _ _ _).bind fun _ => ih is

theorem writeLayout_relax (v : TypedValue Term) (inputs : List IRes) {l l' : Layout Term} (hl : l.Relaxed l') :
    DeM.Leads (writeLayout c rec v g inputs l) (writeLayout c rec' v g inputs l') := by
  have hproduct : ∀ (input k : Nat) (dataset : List (QuadPat Term)) (fs fs' : List (Value × Field Term)),
      List.Forall₂ (fun a b => a.1 = b.1 ∧ a.2.Relaxed b.2) fs fs' →
      DeM.Leads (writeLayout c rec v g inputs (.product ⟨input, k, fs, dataset⟩))
        (writeLayout c rec' v g inputs (.product ⟨input, k, fs', dataset⟩)) := by
    intro input k dataset fs fs' h
    simp only [writeLayout]
    split
    · exact .bindSame fun _ => .bindSame fun _ => writeFields_relax hrec h _
    · exact .same _
  cases hl with
  | product input _ dataset h => exact hproduct _ _ _ _ _ h
  | refl l =>
    cases l with
    | never => exact .same _
    | always => exact .same _
    | unit l => exact .same _
    | boolean l => exact .same _
    | number l => exact .same _
    | byteString l => exact .same _
    | textString l => exact .same _
    | id l => exact .same _
    | product l => exact hproduct _ _ _ _ _ (List.forall₂_same.2 fun a _ => ⟨rfl, rfl, rfl, rfl, id⟩)
    | sum l =>
      simp only [writeLayout]
      split
      · refine .bindSame fun _ => .bindSame fun _ => ?_
        split
        · exact writeItem_leads hrec _ _ _ _
        · exact .same _
      · exact .same _
    | unordered l =>
      simp only [writeLayout]
      split
      · exact .bindSame fun _ => .bindSame fun _ => writeItems_leads hrec _ _
      · exact .same _
    | ordered l =>
      simp only [writeLayout]
      split
      · exact .bindSame fun _ => .bindSame fun _ => .bindSame fun _ => writeNodes_leads hrec _ _ _ _
      · exact .same _
    | sized l =>
      simp only [writeLayout]
      split
      · exact .bindSame fun _ => .bindSame fun _ => writeSized_leads hrec _ _
      · exact .same _

end

theorem writeLayout_otherReg (reg' : Registry Term) (rec : SRec) (v : TypedValue Term) (g : Option IRes) (inputs : List IRes)
    (l : Layout Term) : writeLayout { c with reg := reg' } rec v g inputs l = writeLayout c rec v g inputs l := by
  cases l <;> rfl

theorem writePrim_otherReg (reg' : Registry Term) (r : IRes) (p : Prim) (lit : TypedLiteral Term) :
    writePrim { c with reg := reg' } r p lit = writePrim c r p lit := by
  cases p <;> cases lit <;> rfl

theorem serialize_relax {reg' : Registry Term} (hrel : c.reg.Relaxed reg') (n : Nat) (v : TypedValue Term) (g : Option IRes) (ref : Term)
    (inputs : List IRes) : DeM.Leads (serialize c n v g ref inputs) (serialize { c with reg := reg' } n v g ref inputs) := by
  induction n generalizing v g ref inputs with
  | zero => exact fun _ _ _ h => nomatch h
  | succ n ih =>
    unfold serialize
    dsimp only
    cases c.prim ref with
    | some p =>
      dsimp only
      simp only [writePrim_otherReg]
      exact .same _
    | none =>
      dsimp only
      cases h : c.reg ref with
      | none => exact fun _ _ _ h => nomatch h
      | some l =>
        obtain ⟨l', h2, h3⟩ := hrel ref l h
        rw [h2]
        dsimp only
        rw [writeLayout_otherReg]
        exact writeLayout_relax ih v inputs h3

/-! ## More optional fields -/

variable {K : Value → Prop}

/-- No record in the tree has one of these keys. -/
def Lacks (K : Value → Prop) (v : TypedValue Term) : Prop := ∀ k, K k → ¬ v.HasKey k

theorem writeItem_congr' {fmt : ValueFormat Term} {v : TypedValue Term} (h : ∀ g i, rec v g fmt.layout i = rec' v g fmt.layout i)
    (env : Env IRes) (k : Nat) (dataset : List (QuadPat Term)) :
    writeItem rec' g env k dataset fmt v = writeItem rec g env k dataset fmt v := by
  simp only [writeItem, writeSub, h]

theorem writeFields_extend {fs fs' : List (Value × Field Term)} (h : FieldsExtended (fun k f => f.required = false ∧ K k) fs fs')
    {m : List (Value × TypedValue Term)} (hm : ∀ e ∈ m, ¬ K e.1)
    (hrec : ∀ e ∈ m, ∀ f ∈ fs, ∀ g i, rec e.2 g f.2.value.layout i = rec' e.2 g f.2.value.layout i) :
    writeFields rec' g env m fs' = writeFields rec g env m fs := by
  induction h with
  | nil => rfl
  | keep k f _ ih =>
    have h2 := ih fun e he f hf => hrec e he f (List.mem_cons_of_mem _ hf)
    unfold writeFields
    cases he : m.find? (fun e => e.1 == k) with
    | none => simp only [h2]
    | some e =>
      have h1 := hrec e (List.mem_of_find?_eq_some he) (k, f) List.mem_cons_self
      simp only [h2, writeItem_congr' (g := g) h1]
  | @add k f fs fs' hp _ ih =>
    have hn : m.find? (fun e => e.1 == k) = none := by
      rw [List.find?_eq_none]
      intro e he hk
      rw [beq_iff_eq] at hk
      exact hm e he (hk ▸ hp.2)
    rw [writeFields, hn]
    dsimp only
    rw [hp.1, if_neg (by simp), ih hrec]

theorem writeLayout_extend {v : TypedValue Term} (hv : Lacks K v) (inputs : List IRes) {l l' : Layout Term}
    (hl : l.Extended (fun _ k f => f.required = false ∧ K k) l')
    (hrec : ∀ f ∈ l.formats, ∀ w, Lacks K w → ∀ g i, rec w g f.layout i = rec' w g f.layout i) :
    writeLayout c rec' v g inputs l' = writeLayout c rec v g inputs l := by
  have hproduct : ∀ (input k : Nat) (dataset : List (QuadPat Term)) (fs fs' : List (Value × Field Term)),
      FieldsExtended (fun k f => f.required = false ∧ K k) fs fs' →
      (∀ f ∈ fs, ∀ w, Lacks K w → ∀ g i, rec w g f.2.value.layout i = rec' w g f.2.value.layout i) →
      writeLayout c rec' v g inputs (.product ⟨input, k, fs', dataset⟩) =
        writeLayout c rec v g inputs (.product ⟨input, k, fs, dataset⟩) := by
    intro input k dataset fs fs' h hr
    simp only [writeLayout]
    split
    · rename_i m ref
      have he : ∀ env, writeFields rec' g env m fs' = writeFields rec g env m fs := fun env =>
        writeFields_extend h (fun e he hk => hv e.1 hk (.here (v := e.2) he))
          fun e he f hf => hr f hf e.2 fun k' hk' hw => hv k' hk' (.entry (k' := e.1) he hw)
      simp only [he]
    · rfl
  cases hl with
  | product input _ dataset h => exact hproduct _ _ _ _ _ h fun f hf => hrec f.2.value (List.mem_map.2 ⟨f, hf, rfl⟩)
  | refl l =>
    cases l with
    | product l =>
      have hrefl : ∀ fs : List (Value × Field Term), FieldsExtended (fun k f => f.required = false ∧ K k) fs fs := by
        intro fs
        induction fs with
        | nil => exact .nil
        | cons a fs ih => exact .keep a.1 a.2 ih
      exact hproduct _ _ _ _ _ (hrefl _) fun f hf => hrec f.2.value (List.mem_map.2 ⟨f, hf, rfl⟩)
    | sum l =>
      simp only [writeLayout]
      split
      · rename_i w r i
        congr 1
        funext env
        congr 1
        funext _
        cases hx : l.variants[i]? with
        | none => rfl
        | some x =>
          exact writeItem_congr' (hrec x.value (List.mem_map.2 ⟨x, List.mem_of_getElem? hx, rfl⟩) w
            fun k hk hw => hv k hk (.variant hw)) _ _ _
      · rfl
    | unordered l =>
      simp only [writeLayout]
      split
      · rename_i vs r
        have hw : ∀ w ∈ vs, ∀ g i, rec w g l.item.value.layout i = rec' w g l.item.value.layout i := fun w hw =>
          hrec l.item.value (by simp [Layout.formats]) w fun k hk hx => hv k hk (.item hw hx)
        have h : ∀ env, writeItems rec' g env l.item vs = writeItems rec g env l.item vs := by
          intro env
          clear hv hproduct
          induction vs with
          | nil => rfl
          | cons w vs ih =>
            rw [List.forall_mem_cons] at hw
            simp only [writeItems, ih hw.2, writeItem_congr' (g := g) hw.1]
        simp only [h]
      · rfl
    | ordered l =>
      simp only [writeLayout]
      split
      · rename_i vs r
        have hw : ∀ w ∈ vs, ∀ g i, rec w g l.node.value.layout i = rec' w g l.node.value.layout i := fun w hw =>
          hrec l.node.value (by simp [Layout.formats]) w fun k hk hx => hv k hk (.item hw hx)
        have h : ∀ env head, writeNodes rec' g env l.node l.tail head vs = writeNodes rec g env l.node l.tail head vs := by
          intro env head
          clear hv hproduct
          induction vs generalizing head with
          | nil => rfl
          | cons w vs ih =>
            rw [List.forall_mem_cons] at hw
            simp only [writeNodes, ih hw.2, writeItem_congr' (g := g) hw.1]
        simp only [h]
      · rfl
    | sized l =>
      simp only [writeLayout]
      split
      · rename_i vs r
        have hw : ∀ w ∈ vs, ∀ x ∈ l.items, ∀ g i, rec w g x.value.layout i = rec' w g x.value.layout i := fun w hw x hx =>
          hrec x.value (List.mem_map.2 ⟨x, hx, rfl⟩) w fun k hk hy => hv k hk (.item hw hy)
        have h : ∀ (is : List (ItemLayout Term)) (vs : List (TypedValue Term)) env,
            (∀ w ∈ vs, ∀ x ∈ is, ∀ g i, rec w g x.value.layout i = rec' w g x.value.layout i) →
            writeSized rec' g env vs is = writeSized rec g env vs is := by
          intro is
          induction is with
          | nil => intro vs env _; cases vs <;> rfl
          | cons x is ih =>
            intro vs env hw
            cases vs with
            | nil => rfl
            | cons w vs =>
              have h1 := hw w List.mem_cons_self x List.mem_cons_self
              have h2 := ih vs env fun w' hw' y hy => hw w' (List.mem_cons_of_mem _ hw') y (List.mem_cons_of_mem _ hy)
              simp only [writeSized, h2, writeItem_congr' (g := g) h1]
        simp only [h l.items vs _ hw]
      · rfl
    | _ => rfl

theorem serialize_extend {reg' : Registry Term} (hrel : c.reg.Extended (fun _ k f => f.required = false ∧ K k) reg')
    (hcomp : c.reg.Complete) (n : Nat) (v : TypedValue Term) (hv : Lacks K v) (g : Option IRes) (ref : Term)
    (hr : (c.reg ref).isSome = true) (inputs : List IRes) :
    serialize { c with reg := reg' } n v g ref inputs = serialize c n v g ref inputs := by
  induction n generalizing v g ref inputs with
  | zero => rfl
  | succ n ih =>
    obtain ⟨l, h⟩ := Option.isSome_iff_exists.1 hr
    obtain ⟨l', h2, h3⟩ := hrel ref l h
    unfold serialize
    dsimp only
    cases c.prim ref with
    | some p =>
      dsimp only
      simp only [writePrim_otherReg]
    | none =>
      dsimp only
      rw [h, h2]
      dsimp only
      rw [writeLayout_otherReg]
      exact writeLayout_extend hv inputs h3 fun f hf w hw g i => (ih w hw g f.layout (hcomp ref l h f hf) i).symm

end Verif.Derived
