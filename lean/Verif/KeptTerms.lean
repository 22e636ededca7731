import Verif.KeptSpec
import Verif.DehydrateLemmas

/-! # The terms assigned to resources are literals, or texts of the tree -/

set_option linter.unusedSectionVars false
set_option linter.unusedSimpArgs false

namespace Verif.Keeping

open Verif.Dehydrate

/-- Only terms of `T` are assigned. -/
def Adds (T : Term → Prop) (s s' : DeState) : Prop := ∀ e ∈ s'.terms, e ∈ s.terms ∨ T e.2

variable {T : Term → Prop}

theorem adds_trans (a b c : DeState) (h1 : Adds T a b) (h2 : Adds T b c) : Adds T a c := by
  intro e he
  rcases h2 e he with h | h
  · exact h1 e h
  · exact .inr h

theorem adds_bind {α β : Type} {x : DeM α} {f : α → DeM β} (hx : x.Pres (Adds T)) (hf : ∀ a, (f a).Pres (Adds T)) :
    (x.bind f).Pres (Adds T) := hx.bind adds_trans hf

theorem adds_same {α : Type} {x : DeM α} (h : ∀ s, (x s).2.terms = s.terms) : x.Pres (Adds T) := by
  intro s e he
  rw [h s] at he
  exact .inl he

theorem adds_read {α : Type} (f : DeState → Out DeError α) : (DeM.read f).Pres (Adds T) := adds_same fun _ => rfl

theorem adds_fail {α : Type} (e : DeError) : (DeM.fail e : DeM α).Pres (Adds T) := adds_same fun _ => rfl

theorem adds_pure {α : Type} (a : α) : (DeM.pure a).Pres (Adds T) := adds_same fun _ => rfl

theorem adds_intro (env : Env IRes) (k : Nat) : (intro env k).Pres (Adds T) := adds_same fun s => by rw [intro_eq]

theorem adds_instDataset (env : Env IRes) (qs : List (QuadPat Term)) : (instDataset env qs).Pres (Adds T) := by
  induction qs with
  | nil => exact adds_pure _
  | cons q qs ih => exact adds_bind (adds_read _) fun q => adds_bind (adds_same fun _ => rfl) fun _ => ih

theorem adds_assign (r : IRes) {t : Term} (ht : T t) : (assign r t).Pres (Adds T) := by
  intro s e he
  simp only [assign, DeM.modify] at he
  split at he
  · exact .inl he
  · rcases List.mem_append.1 he with he | he
    · exact .inl he
    · simp only [List.mem_singleton] at he
      subst he
      exact .inr ht

variable {rec : Rec}

theorem adds_subValue {v : Value} (hrec : ∀ g ref ins, (rec v g ref ins).Pres (Adds T)) (graph : Option IRes)
    (fmt : ValueFormat Term) (env : Env IRes) : (subValue rec graph fmt env v).Pres (Adds T) :=
  adds_bind (adds_read _) fun _ => adds_bind (adds_read _) fun _ => hrec _ _ _

theorem adds_variants {v : Value} (hrec : ∀ g ref ins, (rec v g ref ins).Pres (Adds T)) (graph : Option IRes)
    (env : Env IRes) (vs : List (Variant Term)) (sel : Option (List (Quad IRes))) :
    (variants rec graph env v vs sel).Pres (Adds T) := by
  induction vs generalizing sel with
  | nil =>
    cases sel with
    | none => exact adds_fail _
    | some quads => exact adds_same fun _ => rfl
  | cons x vs ih =>
    refine adds_bind (adds_intro _ _) fun venv => adds_bind (adds_read _) fun quads => fun s => ?_
    have h1 := adds_subValue hrec graph x.value venv s
    rcases h : subValue rec graph x.value venv v s with ⟨a | e | _ | _, s'⟩
    · rw [h] at h1
      cases sel with
      | some _ => exact h1
      | none => exact adds_trans _ _ _ h1 (ih (some quads) s')
    · rw [h] at h1
      exact adds_trans _ _ _ h1 (ih sel s')
    · rw [h] at h1; exact h1
    · rw [h] at h1; exact h1

theorem adds_entries (graph : Option IRes) (env : Env IRes) (fields : List (Value × Field Term))
    (m : List (Value × Value)) (hrec : ∀ e ∈ m, ∀ g ref ins, (rec e.2 g ref ins).Pres (Adds T)) :
    (entries rec graph env fields m).Pres (Adds T) := by
  induction m with
  | nil => exact adds_pure _
  | cons e m ih =>
    obtain ⟨key, v⟩ := e
    rw [List.forall_mem_cons] at hrec
    unfold entries
    split
    · exact adds_bind (adds_intro _ _) fun _ => adds_bind (adds_instDataset _ _) fun _ =>
        adds_bind (adds_subValue hrec.1 _ _ _) fun _ => ih hrec.2
    · exact adds_fail _

theorem adds_requireKeys (ref : Term) (m : List (Value × Value)) (fields : List (Value × Field Term)) :
    (requireKeys ref m fields).Pres (Adds T) := by
  induction fields with
  | nil => exact adds_pure _
  | cons e fs ih =>
    obtain ⟨key, field⟩ := e
    unfold requireKeys
    split
    · exact adds_fail _
    · exact ih

theorem adds_items (graph : Option IRes) (env : Env IRes) (item : ItemLayout Term) (vs : List Value)
    (hrec : ∀ v ∈ vs, ∀ g ref ins, (rec v g ref ins).Pres (Adds T)) : (items rec graph env item vs).Pres (Adds T) := by
  induction vs with
  | nil => exact adds_pure _
  | cons v vs ih =>
    rw [List.forall_mem_cons] at hrec
    exact adds_bind (adds_intro _ _) fun _ => adds_bind (adds_instDataset _ _) fun _ =>
      adds_bind (adds_subValue hrec.1 _ _ _) fun _ => ih hrec.2

theorem adds_nodes (graph : Option IRes) (env : Env IRes) (node : ItemLayout Term) (tail : Pattern Term) (head : IRes)
    (vs : List Value) (hrec : ∀ v ∈ vs, ∀ g ref ins, (rec v g ref ins).Pres (Adds T)) :
    (nodes rec graph env node tail head vs).Pres (Adds T) := by
  induction vs generalizing head with
  | nil => exact adds_pure _
  | cons v vs ih =>
    rw [List.forall_mem_cons] at hrec
    refine adds_bind ?_ fun next => adds_bind (adds_intro _ _) fun _ => adds_bind (adds_instDataset _ _) fun _ =>
      adds_bind (adds_subValue hrec.1 _ _ _) fun _ => ih next hrec.2
    split
    · exact adds_read _
    · exact adds_same fun _ => rfl

theorem adds_sizedItems (graph : Option IRes) (env : Env IRes) (vs : List Value) (is : List (ItemLayout Term))
    (hrec : ∀ v ∈ vs, ∀ g ref ins, (rec v g ref ins).Pres (Adds T)) : (sizedItems rec graph env vs is).Pres (Adds T) := by
  induction vs generalizing is with
  | nil =>
    cases is with
    | nil => exact adds_pure _
    | cons _ _ => exact adds_fail _
  | cons v vs ih =>
    cases is with
    | nil => exact adds_fail _
    | cons i is =>
      rw [List.forall_mem_cons] at hrec
      exact adds_bind (adds_intro _ _) fun _ => adds_bind (adds_instDataset _ _) fun _ =>
        adds_bind (adds_subValue hrec.1 _ _ _) fun _ => ih is hrec.2

theorem adds_data (hlit : ∀ l, T (.literal l)) (inputs : List IRes) (l : DataLayout Term)
    (lit : List String → Out DeError RdfLit) : (data inputs l lit).Pres (Adds T) :=
  adds_bind (adds_intro _ _) fun _ => adds_bind (adds_instDataset _ _) fun _ =>
    adds_bind (adds_read _) fun _ => adds_bind (adds_read _) fun _ => adds_assign _ (hlit _)

/-- The terms assigned are literals, or texts of the tree. -/
theorem adds_dehydrateWith (c : DeCtx) (hlit : ∀ l, T (.literal l)) (n : Nat) (v : Value)
    (hv : ∀ i, v.HasText i → T (.iri i)) (graph : Option IRes) (ref : Term) (inputs : List IRes) :
    (dehydrateWith c n v graph ref inputs).Pres (Adds T) := by
  induction n generalizing v graph ref inputs with
  | zero => exact adds_same fun _ => rfl
  | succ n ih =>
    unfold dehydrateWith
    split
    · exact adds_fail _
    · split
      · exact adds_fail _
      · rename_i l _ _
        cases l with
        | never => exact adds_fail _
        | always => exact adds_pure _
        | unit l =>
          simp only [layout]
          split
          · exact adds_bind (adds_intro _ _) fun _ => adds_instDataset _ _
          · exact adds_fail _
        | boolean l =>
          simp only [layout]
          split
          · exact adds_data hlit _ _ _
          · exact adds_fail _
        | number l =>
          simp only [layout]
          split
          · exact adds_data hlit _ _ _
          · exact adds_fail _
        | byteString l =>
          simp only [layout]
          split
          · exact adds_data hlit _ _ _
          · exact adds_fail _
        | textString l =>
          simp only [layout]
          split
          · exact adds_data hlit _ _ _
          · exact adds_fail _
        | id l =>
          simp only [layout]
          split
          · refine adds_bind (adds_intro _ _) fun _ => adds_bind (adds_instDataset _ _) fun _ =>
              adds_bind (adds_read _) fun _ => ?_
            split
            · exact adds_assign _ (hv _ (.here _))
            · exact adds_fail _
          · exact adds_fail _
        | sum l =>
          exact adds_bind (adds_intro _ _) fun _ => adds_bind (adds_instDataset _ _) fun _ =>
            adds_variants (ih v hv) _ _ _ _
        | product l =>
          simp only [layout]
          split
          · exact adds_bind (adds_intro _ _) fun _ => adds_bind (adds_instDataset _ _) fun _ =>
              adds_bind (adds_entries _ _ _ _ fun e he => ih _ fun i hi => hv i (.map he hi)) fun _ => adds_requireKeys _ _ _
          · exact adds_fail _
        | unordered l =>
          simp only [layout]
          split
          · exact adds_bind (adds_intro _ _) fun _ => adds_bind (adds_instDataset _ _) fun _ =>
              adds_items _ _ _ _ fun v he => ih _ fun i hi => hv i (.list he hi)
          · exact adds_fail _
        | ordered l =>
          simp only [layout]
          split
          · exact adds_bind (adds_intro _ _) fun _ => adds_bind (adds_instDataset _ _) fun _ =>
              adds_bind (adds_read _) fun _ => adds_nodes _ _ _ _ _ _ fun v he => ih _ fun i hi => hv i (.list he hi)
          · exact adds_fail _
        | sized l =>
          simp only [layout]
          split
          · exact adds_bind (adds_intro _ _) fun _ => adds_bind (adds_instDataset _ _) fun _ =>
              adds_sizedItems _ _ _ _ fun v he => ih _ fun i hi => hv i (.list he hi)
          · exact adds_fail _

end Verif.Keeping
