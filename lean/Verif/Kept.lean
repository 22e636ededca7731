import Verif.KeptSpec
import Verif.ReproduceRun
import Verif.RoundTripLoops
import Verif.DehydrateOut
import Verif.KeptTerms

/-! # What is read back has everything that was written -/

set_option linter.unusedSectionVars false
set_option linter.unusedSimpArgs false

namespace Verif.Keeping

open Verif.Dehydrate Verif.RoundTrip Verif.Reproduce

/-- `f` names the resources of the final state `F`, and the dataset `ds` has the quads written. -/
structure World (c : DeCtx) (F : DeState) (f : IRes → Term) (ds : List (Quad Term)) : Prop where
  term : ∀ t, f (.term t) = t
  assigned : ∀ r t, (r, t) ∈ F.terms → f r = t
  quads : ∀ q ∈ F.out, q.map f ∈ ds

variable {c : DeCtx} {F : DeState} {f : IRes → Term} {ds : List (Quad Term)} {whole apart : Prop}
  {le : TypedValue Term → TypedValue Term → Bool}

/-- Resources stand for terms. -/
abbrev St (f : IRes → Term) (ρ : List IRes) (σ : Subst Term) : Prop := Stands (fun _ => True) f ρ σ

/-- The match that binds each variable to the name of the resource it stood for. -/
def written (f : IRes → Term) (ρ : List IRes) (σ : Subst Term) (pats : List (QuadPat Term)) : Subst Term :=
  (List.range ρ.length).map fun y =>
    match σ.get y with
    | some t => some t
    | none => if y ∈ patsVars pats then some (f (ρ.getD y (.input 0))) else none

theorem get_written {ρ : List IRes} {σ : Subst Term} {pats : List (QuadPat Term)} {y : Nat} :
    (written f ρ σ pats).get y = if y < ρ.length then
      match σ.get y with
      | some t => some t
      | none => if y ∈ patsVars pats then some (f (ρ.getD y (.input 0))) else none
      else none := by
  unfold written Subst.get
  rw [List.getElem?_map]
  by_cases hy : y < ρ.length
  · rw [List.getElem?_range hy, if_pos hy]
    rfl
  · rw [List.getElem?_eq_none (by rw [List.length_range]; omega), if_neg hy]
    rfl

theorem written_stands {ρ : List IRes} {σ : Subst Term} {pats : List (QuadPat Term)} (hst : St f ρ σ) :
    St f ρ (written f ρ σ pats) := by
  refine ⟨by simp [written], fun y t hy => ⟨?_, trivial⟩⟩
  rw [get_written] at hy
  split at hy
  · cases h : σ.get y with
    | some u =>
      rw [h] at hy
      injection hy with hy
      subst hy
      exact (hst.get y _ h).1
    | none =>
      rw [h] at hy
      simp only at hy
      split at hy
      · injection hy
      · exact nomatch hy
  · exact nomatch hy

/-- Where patterns were written, they have a match, and it stands for what was written. -/
theorem match_written (W : World c F f ds) {ρ : List IRes} {σ : Subst Term} {pats : List (QuadPat Term)}
    (hst : St f ρ σ) (hb : PatsBelow ρ.length pats) (hq : ∀ p ∈ pats, quadInst ρ p ∈ F.out) :
    IsMatch ds σ pats (written f ρ σ pats) := by
  have key : ∀ y ∈ patsVars pats, (written f ρ σ pats).get y = some (f (ρ.getD y (.input 0))) := by
    intro y hy
    rw [get_written, if_pos (hb y hy)]
    cases h : σ.get y with
    | some u => simp only; rw [(hst.get y _ h).1]
    | none => simp only; rw [if_pos hy]
  have pat : ∀ p : Pattern Term, (∀ y ∈ p.vars, y ∈ patsVars pats) →
      p.Denotes (written f ρ σ pats).get (f (patInst ρ p)) := by
    intro p hp
    cases p with
    | res t => exact W.term t
    | var y => exact key y (hp y (by simp [Pattern.vars]))
  refine ⟨?_, fun i r hi => ?_, fun p hp => ⟨_, W.quads _ (hq p hp), ?_⟩, fun i r hi => ?_⟩
  · rw [hst.length]; simp [written]
  · have hlt := get_lt hi
    rw [get_written, if_pos (by rw [← hst.length]; exact hlt), hi]
  · have sub : ∀ y ∈ p.vars, y ∈ patsVars pats := fun y hy => List.mem_flatMap.2 ⟨p, hp, hy⟩
    unfold QuadPat.vars at sub
    refine ⟨pat _ fun y hy => sub y ?_, pat _ fun y hy => sub y ?_, pat _ fun y hy => sub y ?_, ?_⟩
    · simp [hy]
    · simp [hy]
    · simp [hy]
    · obtain ⟨a, b, o, g⟩ := p
      cases g with
      | none => trivial
      | some g => exact pat _ fun y hy => sub y (by simp [hy])
  · rw [get_written] at hi
    split at hi
    · cases h : σ.get i with
      | some u =>
        rw [h] at hi
        exact .inl hi
      | none =>
        rw [h] at hi
        simp only at hi
        split at hi
        · rename_i hm; exact .inr hm
        · exact nomatch hi
    · exact nomatch hi

theorem stands_scope {ρ : List IRes} {σ : Subst Term} (hst : St f ρ σ) (k : Nat) (s : DeState) :
    St f (scope ρ k s) (σ ++ List.replicate k none) := by
  refine ⟨by rw [length_scope, List.length_append, List.length_replicate, hst.length], fun y t hy => ?_⟩
  have h := get_append_none hy
  have hlt := get_lt h
  rw [scope_getD_old (by rw [← hst.length]; exact hlt)]
  exact hst.get y t h

/-- The resource is not the end of a list. -/
def NotEnd (reg : Registry Term) (r : IRes) : Prop := ∀ t, reg.EndsLists t → r ≠ .term t

/-- What is read by `M` has what was written by `rec`. -/
def RecKept (c : DeCtx) (F : DeState) (f : IRes → Term) (whole apart : Prop)
    (M : Option Term → Term → List Term → TypedValue Term → Prop) (rec : Rec) : Prop :=
  ∀ g ref dins v s s' w, rec v g ref dins s = (.ok (), s') → Extends s' F → (whole → ∀ r ∈ dins, NotEnd c.reg r) →
    M none ref (dins.map f) w → Kept whole apart c.reg c.isIri ref v w

variable {M : Option Term → Term → List Term → TypedValue Term → Prop} {rec : Rec}

theorem inst_notEnd {ρ : List IRes} {p : Pattern Term} (hp : ∀ t, c.reg.EndsLists t → p ≠ .res t)
    (hρ : ∀ y, p = .var y → NotEnd c.reg (ρ.getD y (.input 0))) : NotEnd c.reg (patInst ρ p) := by
  cases p with
  | res t =>
    intro u hu he
    injection he with he
    subst he
    exact hp _ hu rfl
  | var y => exact hρ y rfl

theorem getD_notEnd {ρ : List IRes} (hρ : ∀ r ∈ ρ, NotEnd c.reg r) (y : Nat) :
    NotEnd c.reg (ρ.getD y (.input 0)) := by
  rw [List.getD_eq_getElem?_getD]
  cases h : ρ[y]? with
  | none => intro t _ he; exact nomatch he
  | some r => exact hρ r (List.mem_of_getElem? h)

theorem scope_notEnd {ρ : List IRes} (hρ : ∀ r ∈ ρ, NotEnd c.reg r) (k : Nat) (s : DeState) :
    ∀ r ∈ scope ρ k s, NotEnd c.reg r := by
  intro r hr
  rcases List.mem_append.1 hr with hr | hr
  · exact hρ r hr
  · obtain ⟨i, rfl, _, _⟩ := mem_freshList.1 hr
    intro t _ he; exact nomatch he

/-- A sub-value. -/
theorem sub_kept (W : World c F f ds) (hrec : RecKept c F f whole apart M rec) {fmt : ValueFormat Term}
    (hg : ∀ p, fmt.graph ≠ some (some p)) {ρ : List IRes} {σ : Subst Term} (hst : St f ρ σ) {g : Option IRes} {v : Value}
    {s s' : DeState} (hrun : call rec g fmt ρ v s = (.ok (), s')) (hF : Extends s' F)
    (hend : whole → ∀ p ∈ fmt.input, NotEnd c.reg (patInst ρ p)) {w : TypedValue Term} (hm : SubMeaning M none fmt σ w) :
    Kept whole apart c.reg c.isIri fmt.layout v w := by
  obtain ⟨ins, g', hins, hg', hm⟩ := hm
  have : g' = none := by
    unfold GraphDenotes at hg'
    cases hfg : fmt.graph with
    | none => rw [hfg] at hg'; exact hg'
    | some o =>
      cases o with
      | none => rw [hfg] at hg'; exact hg'
      | some p => exact absurd hfg (hg p)
  subst this
  have hmap : (fmt.input.map (patInst ρ)).map f = ins := by
    clear hm hend hrun
    generalize fmt.input = ps at hins
    induction hins with
    | nil => rfl
    | cons hp _ ih => rw [List.map_cons, List.map_cons, ih, hst.inst W.term hp]
  refine hrec _ _ _ _ _ _ _ hrun hF ?_ (by rw [hmap]; exact hm)
  intro hw r hr
  obtain ⟨p, hp, rfl⟩ := List.mem_map.1 hr
  exact hend hw p hp

/-- What is known of the registry. -/
structure Reg (c : DeCtx) (whole : Prop) : Prop where
  closed : c.reg.Closed
  graph : ∀ ref l, c.reg ref = some l → ∀ f ∈ l.formats, ∀ p, f.graph ≠ some (some p)
  ends : whole → c.reg.EndsApart

theorem format_notEnd (R : Reg c whole) (hw : whole) {ref : Term} {l : Layout Term} (hl : c.reg ref = some l)
    {fmt : ValueFormat Term} (hf : fmt ∈ l.formats) {ρ : List IRes} (hρ : ∀ r ∈ ρ, NotEnd c.reg r) :
    ∀ p ∈ fmt.input, NotEnd c.reg (patInst ρ p) := by
  intro p hp
  refine inst_notEnd (fun t ht he => ?_) fun y _ => getD_notEnd hρ y
  subst he
  exact (R.ends hw).input ref l hl fmt hf t ht hp

/-- The state when the patterns were written, and what was written later. -/
theorem emitted {ρ : List IRes} {pats : List (QuadPat Term)} {s : DeState} (h : Extends (emit ρ pats s) F) :
    ∀ p ∈ pats, quadInst ρ p ∈ F.out := fun p hp => h.quads _ (mem_emit.2 (.inr ⟨p, hp, rfl⟩))

theorem extends_trans {a b d : DeState} (h1 : Extends a b) (h2 : Extends b d) : Extends a d :=
  extends_rel.trans _ _ _ h1 h2

/-- What is known of the recursive calls. -/
def RecExt (rec : Rec) : Prop := ∀ v g ref ins s, Extends s (rec v g ref ins s).2

theorem call_ext (hext : RecExt rec) {g : Option IRes} {fmt : ValueFormat Term} {ρ : List IRes} {v : Value}
    {s s' : DeState} {o : Out DeError Unit} (h : call rec g fmt ρ v s = (o, s')) : Extends s s' := by
  have := hext v (graphInst ρ g fmt.graph) fmt.layout (fmt.input.map (patInst ρ)) s
  unfold call at h
  rwa [h] at this

/-- The fields of a record. -/
theorem entries_kept (W : World c F f ds) (hrec : RecKept c F f whole apart M rec) (hext : RecExt rec)
    {g : Option IRes} {env : Env IRes} {fields : List (Value × Field Term)} (hnd : (fields.map Prod.fst).Nodup)
    (hcl : ∀ e ∈ fields, PatsBelow (env.flat.length + e.2.intro) e.2.dataset ∧ e.2.value.Below (env.flat.length + e.2.intro))
    (hg : ∀ e ∈ fields, ∀ p, e.2.value.graph ≠ some (some p))
    (hend : whole → ∀ e ∈ fields, ∀ ρ : List IRes, (∀ r ∈ ρ, NotEnd c.reg r) → ∀ p ∈ e.2.value.input, NotEnd c.reg (patInst ρ p))
    (hρ : whole → ∀ r ∈ env.flat, NotEnd c.reg r)
    {σ : Subst Term} (hst : St f env.flat σ) {m : List (Value × Value)} {s s' : DeState}
    (hrun : entries rec g env fields m s = (.ok (), s')) (hF : Extends s' F) :
    ∀ k v, (k, v) ∈ m → ∃ fd, (k, fd) ∈ fields ∧
      (∃ τ, IsMatch ds (σ ++ List.replicate fd.intro none) (inGraph none fd.dataset) τ) ∧
      ∀ σ' w, UniqueMatch ds (σ ++ List.replicate fd.intro none) (inGraph none fd.dataset) σ' →
        SubMeaning M none fd.value σ' w → Kept whole apart c.reg c.isIri fd.value.layout v w := by
  induction m generalizing s with
  | nil => intro k v h; exact nomatch h
  | cons e m ih =>
    obtain ⟨k, v⟩ := e
    cases hlk : lookup k fields with
    | none =>
      unfold entries at hrun
      rw [hlk] at hrun
      exact nomatch hrun
    | some fd =>
      have hin : (k, fd) ∈ fields := by
        unfold lookup at hlk
        rw [Option.map_eq_some_iff] at hlk
        obtain ⟨⟨k', fd'⟩, h1, h2⟩ := hlk
        have h3 := List.mem_of_find?_eq_some h1
        have h4 := List.find?_some h1
        simp only [beq_iff_eq] at h2 h4
        subst h2
        have : k' = k := by simpa using h4
        rwa [this] at h3
      rw [entries_cons hlk (hcl _ hin).1 (hcl _ hin).2, DeM.bind_eq_ok] at hrun
      obtain ⟨⟨⟩, s1, h1, h2⟩ := hrun
      have hF1 : Extends s1 F := by
        refine extends_trans ?_ hF
        have := pres_entries extends_rel hext g env fields m s1
        rwa [h2] at this
      intro k' v' hkv
      rcases List.mem_cons.1 hkv with he | hkv
      · injection he with e1 e2
        subst e1 e2
        have hst1 := stands_scope hst fd.intro s
        have hm := match_written W hst1 (by rw [length_scope]; exact (hcl _ hin).1)
          (emitted (extends_trans (call_ext hext h1) hF1))
        refine ⟨fd, hin, ⟨_, by rw [inGraph_none]; exact hm⟩, fun σ' w hu hsub => ?_⟩
        rw [inGraph_none] at hu
        have := hu.2 _ hm
        subst this
        exact sub_kept W hrec (hg _ hin) (written_stands hst1) h1 hF1
          (fun hw => hend hw _ hin _ (scope_notEnd (hρ hw) _ _)) hsub
      · exact ih h2 k' v' hkv

/-- The items of an unordered list. -/
theorem items_kept (W : World c F f ds) (hrec : RecKept c F f whole apart M rec) (hext : RecExt rec)
    {g : Option IRes} {env : Env IRes} {item : ItemLayout Term} (hcl : item.Closed (env.flat.length + item.intro))
    (hg : ∀ p, item.value.graph ≠ some (some p))
    (hend : whole → ∀ ρ : List IRes, (∀ r ∈ ρ, NotEnd c.reg r) → ∀ p ∈ item.value.input, NotEnd c.reg (patInst ρ p))
    (hρ : whole → ∀ r ∈ env.flat, NotEnd c.reg r)
    {σ : Subst Term} (hst : St f env.flat σ) {vs : List Value} {s s' : DeState}
    (hrun : items rec g env item vs s = (.ok (), s')) (hF : Extends s' F) :
    ∀ v ∈ vs, ∃ τ, IsMatch ds (σ ++ List.replicate item.intro none) (inGraph none item.dataset) τ ∧
      ∀ w, SubMeaning M none item.value τ w → Kept whole apart c.reg c.isIri item.value.layout v w := by
  induction vs generalizing s with
  | nil => intro v h; exact nomatch h
  | cons v vs ih =>
    rw [items_cons hcl, DeM.bind_eq_ok] at hrun
    obtain ⟨⟨⟩, s1, h1, h2⟩ := hrun
    have hF1 : Extends s1 F := by
      refine extends_trans ?_ hF
      have := pres_items extends_rel hext g env item vs s1
      rwa [h2] at this
    intro v' hv
    rcases List.mem_cons.1 hv with rfl | hv
    · have hst1 := stands_scope hst item.intro s
      have hm := match_written W hst1 (by rw [length_scope]; exact hcl.1)
        (emitted (extends_trans (call_ext hext h1) hF1))
      rw [inGraph_none]
      exact ⟨_, hm, fun w hsub => sub_kept W hrec hg (written_stands hst1) h1 hF1
        (fun hw => hend hw _ (scope_notEnd (hρ hw) _ _)) hsub⟩
    · exact ih h2 v' hv

/-- The items of a tuple. -/
theorem sized_kept (W : World c F f ds) (hrec : RecKept c F f whole apart M rec) (hext : RecExt rec)
    {g : Option IRes} {env : Env IRes} {is : List (ItemLayout Term)}
    (hcl : ∀ item ∈ is, item.Closed (env.flat.length + item.intro))
    (hg : ∀ item ∈ is, ∀ p, item.value.graph ≠ some (some p))
    (hend : whole → ∀ item ∈ is, ∀ ρ : List IRes, (∀ r ∈ ρ, NotEnd c.reg r) →
      ∀ p ∈ item.value.input, NotEnd c.reg (patInst ρ p))
    (hρ : whole → ∀ r ∈ env.flat, NotEnd c.reg r)
    {σ : Subst Term} (hst : St f env.flat σ) {vs : List Value} {ws : List (TypedValue Term)} {s s' : DeState}
    (hrun : sizedItems rec g env vs is s = (.ok (), s')) (hF : Extends s' F)
    (hm : List.Forall₂ (fun (item : ItemLayout Term) v => ∃ σ',
        UniqueMatch ds (σ ++ List.replicate item.intro none) (inGraph none item.dataset) σ' ∧
        SubMeaning M none item.value σ' v) is ws) :
    vs.length = is.length ∧ ∀ (i : Nat) item v w, is[i]? = some item → vs[i]? = some v → ws[i]? = some w →
      Kept whole apart c.reg c.isIri item.value.layout v w := by
  induction hm generalizing vs s with
  | nil =>
    cases vs with
    | nil => exact ⟨rfl, fun i item v w h => by simp at h⟩
    | cons v vs => unfold sizedItems at hrun; exact nomatch hrun
  | @cons item w is ws hw _ ih =>
    cases vs with
    | nil => unfold sizedItems at hrun; exact nomatch hrun
    | cons v vs =>
      rw [List.forall_mem_cons] at hcl hg
      rw [sizedItems_cons hcl.1, DeM.bind_eq_ok] at hrun
      obtain ⟨⟨⟩, s1, h1, h2⟩ := hrun
      have hF1 : Extends s1 F := by
        refine extends_trans ?_ hF
        have := pres_sizedItems extends_rel hext g env vs is s1
        rwa [h2] at this
      obtain ⟨hlen, hrest⟩ := ih hcl.2 hg.2 (fun h i hi => hend h i (by simp [hi])) h2
      refine ⟨by simp [hlen], fun i item' v' w' hi hv hw' => ?_⟩
      cases i with
      | succ i => exact hrest i _ _ _ (by simpa using hi) (by simpa using hv) (by simpa using hw')
      | zero =>
        simp only [List.getElem?_cons_zero, Option.some.injEq] at hi hv hw'
        subst hi hv hw'
        obtain ⟨σ', hu, hsub⟩ := hw
        have hst1 := stands_scope hst item.intro s
        have hm := match_written W hst1 (by rw [length_scope]; exact hcl.1.1)
          (emitted (extends_trans (call_ext hext h1) hF1))
        rw [inGraph_none] at hu
        have := hu.2 _ hm
        subst this
        exact sub_kept W hrec hg.1 (written_stands hst1) h1 hF1
          (fun hw => hend hw _ (by simp) _ (scope_notEnd (hρ hw) _ _)) hsub

theorem stands_pair {ρ : List IRes} {σ : Subst Term} (hst : St f ρ σ) (a b : IRes) :
    St f (ρ ++ [a, b]) (σ ++ [some (f a), none]) := by
  refine ⟨by simp [hst.length], fun y t hy => ⟨?_, trivial⟩⟩
  unfold Subst.get at hy
  rw [List.getD_eq_getElem?_getD]
  by_cases hlt : y < σ.length
  · rw [List.getElem?_append_left hlt] at hy
    rw [List.getElem?_append_left (by rw [← hst.length]; exact hlt)]
    have := (hst.get y t hy).1
    rwa [List.getD_eq_getElem?_getD] at this
  · rw [List.getElem?_append_right (by omega)] at hy
    rw [List.getElem?_append_right (by rw [← hst.length]; omega), ← hst.length]
    rcases hk : y - σ.length with _ | _ | k
    · rw [hk] at hy; simpa using hy
    · rw [hk] at hy; simp at hy
    · rw [hk] at hy; simp at hy

/-- The items of a list. -/
theorem nodes_kept (W : World c F f ds) (hrec : RecKept c F f whole apart M rec) (hext : RecExt rec)
    {g : Option IRes} {env : Env IRes} {node : ItemLayout Term} {tail : Pattern Term}
    (hct : tail.Below env.flat.length) (hcl : node.Closed (env.flat.length + 2 + node.intro))
    (hg : ∀ p, node.value.graph ≠ some (some p))
    (htl : whole → ∃ t, tail = .res t ∧ c.reg.EndsLists t)
    (hfar : whole → ∀ t, c.reg.EndsLists t → ∀ r, f r = t → r = .term t)
    (hend : whole → ∀ p ∈ node.value.input, (∀ t, c.reg.EndsLists t → p ≠ .res t) ∧ p ≠ .var (env.flat.length + 1))
    (hρ : whole → ∀ r ∈ env.flat, NotEnd c.reg r)
    {σ : Subst Term} (hst : St f env.flat σ) {te : Term} (hte : tail.Denotes σ.get te) {head : IRes} {vs : List Value}
    {ws : List (TypedValue Term)} {s s' : DeState}
    (hhead : whole → vs ≠ [] → NotEnd c.reg head) (hlast : vs = [] → f head = te)
    (hrun : nodes rec g env node tail head vs s = (.ok (), s')) (hF : Extends s' F)
    (hm : ChainMeaning ds M none node σ te (f head) ws) :
    ws.length ≤ vs.length ∧ (whole → ws.length = vs.length) ∧
      ∀ (i : Nat) v w, vs[i]? = some v → ws[i]? = some w → Kept whole apart c.reg c.isIri node.value.layout v w := by
  induction vs generalizing s head ws with
  | nil =>
    have hws : ws = [] := by
      have hl := hlast rfl
      cases hm with
      | nil => rfl
      | cons hne => exact absurd hl hne
    subst hws
    exact ⟨Nat.le_refl _, fun _ => rfl, fun i v w h => by simp at h⟩
  | cons v vs ih =>
    rw [nodes_cons hct hcl, DeM.bind_eq_ok] at hrun
    obtain ⟨⟨⟩, s1, h1, h2⟩ := hrun
    have hF1 : Extends s1 F := by
      refine extends_trans ?_ hF
      have := pres_nodes extends_rel hext g env node tail (nextNode env.flat tail vs s) vs s1
      rwa [h2] at this
    generalize hh : f head = ht at hm
    cases hm with
    | nil =>
      refine ⟨by simp, fun hw => ?_, fun i v w _ h => by simp at h⟩
      obtain ⟨t, rfl, ht⟩ := htl hw
      have : te = t := hte
      subst this
      exact absurd (hfar hw _ ht _ hh) (hhead hw (by simp) _ ht)
    | @cons _ σ' w next ws hne hu hsub hnext hrest =>
      subst hh
      have hst0 := stands_pair hst head (nextNode env.flat tail vs s)
      have hst1 := stands_scope hst0 node.intro (allocNext vs s)
      have hm := match_written W hst1 (by rw [length_scope]; simpa [Nat.add_assoc] using hcl.1)
        (emitted (extends_trans (call_ext hext h1) hF1))
      rw [inGraph_none] at hu
      have := hu.2 _ hm
      subst this
      have hst2 := written_stands (pats := node.dataset) hst1
      have hnx : f (nextNode env.flat tail vs s) = next := by
        have := (hst2.get _ _ hnext).1
        rw [scope_getD_old (by simp [hst.length]), List.getD_eq_getElem?_getD, hst.length] at this
        simpa using this
      subst hnx
      obtain ⟨r1, r2, r3⟩ := ih (fun hw hvs => by
          unfold nextNode
          rw [if_neg (by simpa using hvs)]
          intro t _ he; exact nomatch he)
        (fun hvs => by
          subst hvs
          exact hst.inst W.term hte) h2 hrest
      refine ⟨by simp [r1], fun hw => by simp [r2 hw], fun i v' w' hv hw' => ?_⟩
      cases i with
      | succ i => exact r3 i _ _ (by simpa using hv) (by simpa using hw')
      | zero =>
        simp only [List.getElem?_cons_zero, Option.some.injEq] at hv hw'
        subst hv hw'
        refine sub_kept W hrec hg hst2 h1 hF1 (fun hw p hp => ?_) hsub
        obtain ⟨e1, e2⟩ := hend hw p hp
        refine inst_notEnd e1 fun y hy => ?_
        have hy' : y ≠ env.flat.length + 1 := fun h => e2 (by rw [hy, h])
        rw [List.getD_eq_getElem?_getD]
        cases hr : (scope (env.flat ++ [head, nextNode env.flat tail vs s]) node.intro (allocNext vs s))[y]? with
        | none => intro t _ he; exact nomatch he
        | some r =>
          simp only [Option.getD_some]
          unfold scope at hr
          by_cases hlt : y < env.flat.length
          · rw [List.getElem?_append_left (by simp; omega), List.getElem?_append_left hlt] at hr
            exact hρ hw r (List.mem_of_getElem? hr)
          · by_cases hq : y = env.flat.length
            · subst hq
              rw [List.getElem?_append_left (by simp), List.getElem?_append_right (Nat.le_refl _)] at hr
              simp only [Nat.sub_self, List.getElem?_cons_zero, Option.some.injEq] at hr
              subst hr
              exact hhead hw (by simp)
            · rw [List.getElem?_append_right (by simp; omega)] at hr
              obtain ⟨i, rfl, _, _⟩ := mem_freshList.1 (List.mem_of_getElem? hr)
              intro t _ he; exact nomatch he

/-- Every variant was written or refused, and one was written. -/
theorem variants_kept (hext : RecExt rec) {g : Option IRes} {env : Env IRes} {v : Value} {xs : List (Variant Term)}
    (hcl : ∀ x ∈ xs, PatsBelow (env.flat.length + x.intro) x.dataset ∧ x.value.Below (env.flat.length + x.intro))
    {sel : Option (List (Quad IRes))} {s s' : DeState} (hrun : variants rec g env v xs sel s = (.ok (), s')) :
    (∀ qs, sel = some qs → ∀ q ∈ qs, q ∈ s'.out) ∧
    (∀ (i : Nat) x, xs[i]? = some x →
      (∃ s1 s2, call rec g x.value (scope env.flat x.intro s1) v (alloc x.intro s1) = (.ok (), s2) ∧ Extends s2 s' ∧
        ∀ p ∈ x.dataset, quadInst (scope env.flat x.intro s1) p ∈ s'.out) ∨
      (∃ s1 s2 e, call rec g x.value (scope env.flat x.intro s1) v (alloc x.intro s1) = (.err e, s2))) ∧
    (sel = none → ∃ (i : Nat) (x : Variant Term), xs[i]? = some x ∧
      ∃ s1 s2, call rec g x.value (scope env.flat x.intro s1) v (alloc x.intro s1) = (.ok (), s2) ∧ Extends s2 s' ∧
        ∀ p ∈ x.dataset, quadInst (scope env.flat x.intro s1) p ∈ s'.out) := by
  induction xs generalizing sel s with
  | nil =>
    cases sel with
    | none => exact nomatch hrun
    | some qs =>
      refine ⟨?_, fun i x h => by simp at h, fun h => nomatch h⟩
      rintro _ ⟨⟩ q hq
      unfold variants DeM.modify at hrun
      simp only [Prod.mk.injEq, true_and] at hrun
      subst hrun
      exact mem_foldl_insertQuad.2 (.inr hq)
  | cons x xs ih =>
    rw [List.forall_mem_cons] at hcl
    have hpres : ∀ sel s, Extends s (variants rec g env v xs sel s).2 :=
      fun sel s => pres_variants extends_rel hext g env v xs sel s
    rw [variants_cons hcl.1.1 hcl.1.2] at hrun
    rcases hc : call rec g x.value (scope env.flat x.intro s) v (alloc x.intro s) with ⟨a | e | _ | _, s2⟩
    · rw [hc] at hrun
      cases sel with
      | some _ => exact nomatch hrun
      | none =>
        simp only at hrun
        obtain ⟨h1, h2, h3⟩ := ih hcl.2 hrun
        have hs2 := hpres (some (x.dataset.map (quadInst (scope env.flat x.intro s)))) s2
        rw [hrun] at hs2
        have hthis : ∃ s1 s2, call rec g x.value (scope env.flat x.intro s1) v (alloc x.intro s1) = (.ok (), s2) ∧
            Extends s2 s' ∧ ∀ p ∈ x.dataset, quadInst (scope env.flat x.intro s1) p ∈ s'.out :=
          ⟨s, s2, hc, hs2, fun p hp => h1 _ rfl _ (List.mem_map_of_mem hp)⟩
        refine ⟨fun _ h => (nomatch h), fun i y hy => ?_, fun _ => ⟨0, x, rfl, hthis⟩⟩
        cases i with
        | zero =>
          simp only [List.getElem?_cons_zero, Option.some.injEq] at hy
          subst hy
          exact .inl hthis
        | succ i => exact h2 i y (by simpa using hy)
    · rw [hc] at hrun
      simp only at hrun
      obtain ⟨h1, h2, h3⟩ := ih hcl.2 hrun
      refine ⟨h1, fun i y hy => ?_, fun hs => ?_⟩
      · cases i with
        | zero =>
          simp only [List.getElem?_cons_zero, Option.some.injEq] at hy
          subst hy
          exact .inr ⟨s, s2, e, hc⟩
        | succ i => exact h2 i y (by simpa using hy)
      · obtain ⟨i, y, hy, h⟩ := h3 hs
        exact ⟨i + 1, y, by simpa using hy, h⟩
    · rw [hc] at hrun; exact nomatch hrun
    · rw [hc] at hrun; exact nomatch hrun

theorem layout_patterns (W : World c F f ds) {dins : List IRes} {k : Nat} {pats : List (QuadPat Term)} {s : DeState}
    (hb : PatsBelow (dins.length + k) pats) (hF : Extends (emit (scope dins k s) pats (alloc k s)) F) {σ : Subst Term}
    (hu : UniqueMatch ds ((dins.map f).map some ++ List.replicate k none) (inGraph none pats) σ) :
    St f (scope dins k s) σ := by
  have hst := stands_scope (stands_inputs (P := fun _ => True) (h := f) (dins := dins) rfl fun _ _ => trivial) k s
  have hm := match_written W hst (by rw [length_scope]; exact hb) (emitted hF)
  rw [inGraph_none] at hu
  have := hu.2 _ hm
  subst this
  exact written_stands hst

theorem data_kept {α : Type} (W : World c F f ds) {parse : String → String → Out (HyError Term) α} {l : DataLayout Term}
    {dins : List IRes} (h1 : PatsBelow (dins.length + l.intro) l.dataset) (h2 : l.resource.Below (dins.length + l.intro))
    {lit : List String → Out DeError RdfLit} {s s' : DeState} (hrun : data dins l lit s = (.ok (), s'))
    (hF : Extends s' F) {a : α} (hm : DataMeaning (HyCtx.ofTerms c.reg c.xsd le ds) parse none l (dins.map f) a) :
    ∃ iris wl i, lit iris = .ok wl ∧ wl.type = .any i ∧ parse wl.value i = .ok a := by
  rw [data_eq h1 h2, DeM.bind_eq_ok] at hrun
  obtain ⟨wl, s1, h3, h4⟩ := hrun
  rw [DeM.read_eq_ok] at h3
  obtain ⟨h3, rfl⟩ := h3
  obtain ⟨hout, hfr, hmem⟩ := mem_assign h4
  obtain ⟨σ, r, rl, i, hu, hden, hfil, htype, hparse⟩ := hm
  have hF1 : Extends (emit (scope dins l.intro s) l.dataset (alloc l.intro s)) F :=
    extends_trans ⟨fun q hq => by rw [hout]; exact hq, fun e he => (hmem e).2 (.inl he), by rw [hfr]⟩ hF
  have hst := layout_patterns W h1 hF1 hu
  have hr : .literal wl = r := by
    rw [← hst.inst W.term hden, W.assigned _ _ (hF.terms _ ((hmem _).2 (.inr rfl)))]
  obtain ⟨rfl, -⟩ := literal_of_filter hfil htype
  injection hr with hr
  subst hr
  exact ⟨_, _, i, h3, rfl, hparse⟩

theorem required_present {ref : Term} {m : List (Value × Value)} {fields : List (Value × Field Term)} {s s' : DeState}
    (h : requireKeys ref m fields s = (.ok (), s')) {k : Value} {fd : Field Term} (hf : (k, fd) ∈ fields)
    (hr : fd.required = true) : ∃ v, (k, v) ∈ m := by
  induction fields with
  | nil => exact nomatch hf
  | cons e fields ih =>
    obtain ⟨key, field⟩ := e
    unfold requireKeys at h
    split at h
    · exact nomatch h
    · rename_i hc
      rcases List.mem_cons.1 hf with he | hf
      · injection he with e1 e2
        subst e1 e2
        rw [hr] at hc
        simp only [Bool.true_and, Bool.not_eq_true', Bool.not_eq_false, List.any_eq_true, beq_iff_eq] at hc
        obtain ⟨⟨k', v⟩, he, rfl⟩ := hc
        exact ⟨v, he⟩
      · exact ih h hf

theorem fields_sublist {σ : Subst Term} {fs : List (Value × Field Term)} {m : List (Value × TypedValue Term)}
    (h : FieldsMeaning ds M none σ fs m) : (m.map Prod.fst).Sublist (fs.map Prod.fst) := by
  induction h with
  | nil => exact .slnil
  | present _ _ _ ih => exact .cons_cons _ ih
  | absent _ _ _ ih => exact .cons _ ih

/-- What is read with a layout has what was written with it. -/
theorem keeping (c : DeCtx) (le : TypedValue Term → TypedValue Term → Bool) (laws : XsdLaws c.xsd) (W : World c F f ds)
    (R : Reg c whole) (hkeys : c.reg.DistinctKeys) (hwt : c.reg.WellTyped)
    (hfar : whole → ∀ t, c.reg.EndsLists t → ∀ r, f r = t → r = .term t)
    (hap : apart → (HyCtx.ofTerms c.reg c.xsd le ds).ToldApart) (n m : Nat) :
    RecKept c F f whole apart (Meaning (HyCtx.ofTerms c.reg c.xsd le ds) m) (dehydrateWith c n) := by
  induction n generalizing m with
  | zero => intro g ref dins v s s' w hrun; exact nomatch hrun
  | succ n ihn =>
    intro g ref dins v s s' w hrun hF hne hm
    cases m with
    | zero => exact absurd hm id
    | succ m =>
    have hrec := ihn m
    have hext : RecExt (dehydrateWith c n) := fun v g ref ins s => pres_dehydrateWith extends_rel c n v g ref ins s
    obtain ⟨l, hl, hcount, hm⟩ := hm
    replace hl : c.reg ref = some l := hl
    have hcount' : ∀ k, l.inputCount = some k → dins.length = k := by
      intro k hk
      rw [← hcount k hk, List.length_map]
    have hcl := R.closed ref l hl
    have hgr := R.graph ref l hl
    rw [dehydrateWith_succ hl hcount'] at hrun
    cases l with
    | never => exact absurd hm id
    | always => exact .always _ _ hl
    | unit l =>
      obtain ⟨_, rfl⟩ := hm
      simp only [layout] at hrun
      split at hrun
      · rename_i h
        subst h
        exact .value (.unit l.const ref)
      · exact nomatch hrun
    | boolean l =>
      obtain ⟨b, hm, rfl⟩ := hm
      simp only [layout] at hrun
      split at hrun
      · rename_i b'
        have h1 := hcount' 1 rfl
        obtain ⟨iris, wl, i, e1, e2, e3⟩ := data_kept W (by rw [h1]; exact hcl.1) (by rw [h1]; exact hcl.2) hrun hF hm
        have : b' = b := by
          unfold booleanLit at e1
          split at e1
          · injection e1 with e1
            subst e1
            unfold Hydrate.booleanValue at e3
            split at e3
            · change Out.ofOption (c.xsd.parseBoolean (c.xsd.printBoolean b')) = _ at e3
              rw [laws.bool] at e3
              injection e3
            · exact nomatch e3
          · exact nomatch e1
        subst this
        exact .value (.boolean b' ref)
      · exact nomatch hrun
    | number l =>
      obtain ⟨b, hm, rfl⟩ := hm
      simp only [layout] at hrun
      split at hrun
      · rename_i b'
        have h1 := hcount' 1 rfl
        obtain ⟨iris, wl, i, e1, e2, e3⟩ := data_kept W (by rw [h1]; exact hcl.1) (by rw [h1]; exact hcl.2) hrun hF hm
        have : b' = b := by
          unfold numberLit at e1
          split at e1
          · split at e1
            · rename_i hp
              injection e1 with e1
              subst e1
              unfold Hydrate.numberValue at e3
              split at e3
              · change Out.ofOption (c.xsd.parseDecimal _) = _ at e3
                rw [laws.decimal _ _ hp] at e3
                injection e3
              · exact nomatch e3
            · exact nomatch e1
          · exact nomatch e1
        subst this
        exact .value (.number b' ref)
      · exact nomatch hrun
    | byteString l =>
      obtain ⟨b, hm, rfl⟩ := hm
      obtain ⟨_, _, _, _, _, _, _, _, hp⟩ := hm
      exact nomatch hp
    | textString l =>
      obtain ⟨b, hm, rfl⟩ := hm
      simp only [layout] at hrun
      split at hrun
      · rename_i b'
        have h1 := hcount' 1 rfl
        obtain ⟨iris, wl, i, e1, e2, e3⟩ := data_kept W (by rw [h1]; exact hcl.1) (by rw [h1]; exact hcl.2) hrun hF hm
        have : b' = b := by
          unfold textLit at e1
          split at e1
          · injection e1 with e1
            subst e1
            injection e3
          · exact nomatch e1
        subst this
        exact .value (.textString b' ref)
      · exact nomatch hrun
    | id l =>
      obtain ⟨σ, r, iri, hu, hden, hiri, rfl⟩ := hm
      simp only [layout] at hrun
      split at hrun
      · rename_i text
        have h1 := hcount' 1 rfl
        replace hrun : ident c dins l text s = (.ok (), s') := hrun
        rw [ident_eq (by rw [h1]; exact hcl.1) (by rw [h1]; exact hcl.2)] at hrun
        split at hrun
        · obtain ⟨hout, hfr, hmem⟩ := mem_assign hrun
          have hF1 : Extends (emit (scope dins l.intro s) l.dataset (alloc l.intro s)) F :=
            extends_trans ⟨fun q hq => by rw [hout]; exact hq, fun e he => (hmem e).2 (.inl he), by rw [hfr]⟩ hF
          have hst := layout_patterns W (by rw [h1]; exact hcl.1) hF1 hu
          have hr : .iri text = r := by
            rw [← hst.inst W.term hden, W.assigned _ _ (hF.terms _ ((hmem _).2 (.inr rfl)))]
          subst hr
          have : text = iri := by simpa [HyCtx.ofTerms] using hiri
          subst this
          exact .value (.id text ref)
        · exact nomatch hrun
      · exact nomatch hrun
    | product l =>
      obtain ⟨σ, mm, hu, hfields, rfl⟩ := hm
      have hlen := hcount' _ rfl
      simp only [layout] at hrun
      split at hrun
      · rename_i mv
        rw [intro_emit (by change PatsBelow (dins.length + _) _; rw [hlen]; exact hcl.1), DeM.bind_eq_ok] at hrun
        obtain ⟨⟨⟩, s1, h1, h2⟩ := hrun
        obtain rfl := requireKeys_state h2
        have hfl : (Env.child (.root dins) (freshList s.fresh l.intro)).flat = scope dins l.intro s := rfl
        have hx := pres_entries extends_rel hext g (.child (.root dins) (freshList s.fresh l.intro)) l.fields mv
          (emit (scope dins l.intro s) l.dataset (alloc l.intro s))
        change Extends _ (entries _ g (.child (.root dins) (freshList s.fresh l.intro)) l.fields mv _).2 at hx
        have h1' : entries (dehydrateWith c n) g (.child (.root dins) (freshList s.fresh l.intro)) l.fields mv
          (emit (scope dins l.intro s) l.dataset (alloc l.intro s)) = (.ok (), s') := h1
        rw [h1'] at hx
        have hst := layout_patterns W (by rw [hlen]; exact hcl.1) (extends_trans hx hF) hu
        have hent := entries_kept W hrec hext (hkeys ref l hl) (env := .child (.root dins) (freshList s.fresh l.intro))
          (by rw [hfl, length_scope, hlen]; exact hcl.2)
          (fun e he => hgr _ (List.mem_map_of_mem (f := fun e => e.2.value) he))
          (fun hw e he ρ hρ => format_notEnd R hw hl (List.mem_map_of_mem (f := fun e => e.2.value) he) hρ)
          (fun hw => by rw [hfl]; exact scope_notEnd (hne hw) _ _) (by rw [hfl]; exact hst) h1 hF
        have hread : ∀ {fs : List (Value × Field Term)} {m' : List (Value × TypedValue Term)},
            FieldsMeaning ds (Meaning (HyCtx.ofTerms c.reg c.xsd le ds) m) none σ fs m' →
            (∀ k v', (k, v') ∈ m' → ∃ fd σ', (k, fd) ∈ fs ∧
              UniqueMatch ds (σ ++ List.replicate fd.intro none) (inGraph none fd.dataset) σ' ∧
              SubMeaning (Meaning (HyCtx.ofTerms c.reg c.xsd le ds) m) none fd.value σ' v') ∧
            ∀ k fd, (k, fd) ∈ fs → (∃ τ, IsMatch ds (σ ++ List.replicate fd.intro none) (inGraph none fd.dataset) τ) →
              ∃ v', (k, v') ∈ m' := by
          intro fs m' hfm
          induction hfm with
          | nil => exact ⟨fun _ _ h => (nomatch h), fun _ _ h => (nomatch h)⟩
          | @present key fd fs σ' v' m' hum hsub _ ih =>
            refine ⟨fun k v'' h => ?_, fun k fd' h ht => ?_⟩
            · rcases List.mem_cons.1 h with he | h
              · injection he with e1 e2
                subst e1 e2
                exact ⟨fd, σ', by simp, hum, hsub⟩
              · obtain ⟨fd', σ'', h1, h2⟩ := ih.1 k v'' h
                exact ⟨fd', σ'', by simp [h1], h2⟩
            · rcases List.mem_cons.1 h with he | h
              · injection he with e1 e2
                subst e1 e2
                exact ⟨v', by simp⟩
              · obtain ⟨v'', hv⟩ := ih.2 k fd' h ht
                exact ⟨v'', by simp [hv]⟩
          | @absent key fd fs m' hno _ _ ih =>
            refine ⟨fun k v'' h => ?_, fun k fd' h ht => ?_⟩
            · obtain ⟨fd', σ'', h1, h2⟩ := ih.1 k v'' h
              exact ⟨fd', σ'', by simp [h1], h2⟩
            · rcases List.mem_cons.1 h with he | h
              · injection he with e1 e2
                subst e1 e2
                obtain ⟨τ, hτ⟩ := ht
                exact absurd hτ (hno τ)
              · exact ih.2 k fd' h ht
        obtain ⟨hr1, hr2⟩ := hread hfields
        have heq : ∀ k fd fd', (k, fd) ∈ l.fields → (k, fd') ∈ l.fields → fd = fd' := by
          intro k fd fd' ha hb
          have h1 := lookup_eq (hkeys ref l hl) ha
          have h2 := lookup_eq (hkeys ref l hl) hb
          rw [h1] at h2
          exact Option.some.inj h2
        refine .record _ _ hl (fun k v hkv => ?_) (fun k fd hfd hreq => required_present h2 hfd hreq) (fields_sublist hfields)
          fun k v fd v' hkv hfd hv' => ?_
        · obtain ⟨fd, h1, h2, _⟩ := hent k v hkv
          obtain ⟨v', hv'⟩ := hr2 k fd h1 h2
          exact ⟨fd, v', h1, hv'⟩
        · obtain ⟨fd1, h1, _, h3⟩ := hent k v hkv
          obtain ⟨fd2, σ', h4, h5, h6⟩ := hr1 k v' hv'
          obtain rfl := heq k _ _ h1 hfd
          obtain rfl := heq k _ _ h4 hfd
          exact h3 σ' v' h5 h6
      · exact nomatch hrun
    | unordered l =>
      obtain ⟨σ, ms, values, items', hu, hnodup, hms, hall, hperm, hsorted, rfl⟩ := hm
      have hlen := hcount' _ rfl
      simp only [layout] at hrun
      split at hrun
      · rename_i vs
        rw [intro_emit (by change PatsBelow (dins.length + _) _; rw [hlen]; exact hcl.1)] at hrun
        have hfl : (Env.child (.root dins) (freshList s.fresh l.intro)).flat = scope dins l.intro s := rfl
        have hx := pres_items extends_rel hext g (.child (.root dins) (freshList s.fresh l.intro)) l.item vs
          (emit (scope dins l.intro s) l.dataset (alloc l.intro s))
        have hrun' : items (dehydrateWith c n) g (.child (.root dins) (freshList s.fresh l.intro)) l.item vs
          (emit (scope dins l.intro s) l.dataset (alloc l.intro s)) = (.ok (), s') := hrun
        rw [hrun'] at hx
        have hst := layout_patterns W (by rw [hlen]; exact hcl.1) (extends_trans hx hF) hu
        have hit := items_kept W hrec hext (env := .child (.root dins) (freshList s.fresh l.intro))
          (by rw [hfl, length_scope, hlen]; exact hcl.2) (hgr _ (by simp [Layout.formats]))
          (fun hw ρ hρ => format_notEnd R hw hl (by simp [Layout.formats]) hρ)
          (fun hw => by rw [hfl]; exact scope_notEnd (hne hw) _ _) (by rw [hfl]; exact hst) hrun hF
        have hsome : ∀ i : Nat, ∃ j : Nat, i < vs.length → ∃ w, items'[j]? = some w ∧
            ∀ v, vs[i]? = some v → Kept whole apart c.reg c.isIri l.item.value.layout v w := by
          intro i
          by_cases hi : i < vs.length
          · obtain ⟨τ, hτ, hk⟩ := hit vs[i] (List.getElem_mem hi)
            obtain ⟨w, hw, hsub⟩ := forall₂_left hall ((hms τ).2 hτ)
            obtain ⟨j, hj⟩ := List.mem_iff_getElem?.1 (hperm.mem_iff.2 hw)
            refine ⟨j, fun _ => ⟨w, hj, fun v hv => ?_⟩⟩
            rw [List.getElem?_eq_getElem hi] at hv
            injection hv with hv
            subst hv
            exact hk w hsub
          · exact ⟨0, fun h => absurd h hi⟩
        choose place hplace using hsome
        refine .set _ _ place hl (fun i hi => ?_) fun i v w hv hw => ?_
        · obtain ⟨w, hw, _⟩ := hplace i hi
          exact (List.getElem?_eq_some_iff.1 hw).1
        · obtain ⟨w', hw', hk⟩ := hplace i (List.getElem?_eq_some_iff.1 hv).1
          rw [hw] at hw'
          injection hw' with hw'
          subst hw'
          exact hk v hv
      · exact nomatch hrun
    | ordered l =>
      obtain ⟨σ, head, tail, items', hu, hhead, htail, hchain, rfl⟩ := hm
      have hlen := hcount' _ rfl
      simp only [layout] at hrun
      split at hrun
      · rename_i vs
        have hfl : (Env.child (.root dins) (freshList s.fresh l.intro)).flat = scope dins l.intro s := rfl
        rw [intro_emit (by change PatsBelow (dins.length + _) _; rw [hlen]; exact hcl.1),
          readPattern_bind (by rw [hfl, length_scope, hlen]; exact hcl.2.1)] at hrun
        have hx := pres_nodes extends_rel hext g (.child (.root dins) (freshList s.fresh l.intro)) l.node l.tail
          (patInst (Env.child (.root dins) (freshList s.fresh l.intro)).flat l.head) vs
          (emit (scope dins l.intro s) l.dataset (alloc l.intro s))
        have hrun' : nodes (dehydrateWith c n) g (.child (.root dins) (freshList s.fresh l.intro)) l.node l.tail
          (patInst (Env.child (.root dins) (freshList s.fresh l.intro)).flat l.head) vs
          (emit (scope dins l.intro s) l.dataset (alloc l.intro s)) = (.ok (), s') := hrun
        rw [hrun'] at hx
        have hst := layout_patterns W (by rw [hlen]; exact hcl.1) (extends_trans hx hF) hu
        by_cases hvs : vs = []
        · subst hvs
          exact .list _ _ hl (fun h => absurd rfl h) (fun _ h => absurd rfl h) fun i v w hv => by simp at hv
        · have hρ : whole → ∀ r ∈ scope dins l.intro s, NotEnd c.reg r := fun hw => scope_notEnd (hne hw) _ _
          obtain ⟨k1, k2, k3⟩ := nodes_kept W hrec hext (env := .child (.root dins) (freshList s.fresh l.intro))
            (by rw [hfl, length_scope, hlen]; exact hcl.2.2.1) (by rw [hfl, length_scope, hlen]; exact hcl.2.2.2)
            (hgr _ (by simp [Layout.formats]))
            (fun hw => by
              obtain ⟨t, ht⟩ := (R.ends hw).tail ref l hl
              exact ⟨t, ht, ref, l, hl, ht⟩) hfar
            (fun hw p hp => ⟨fun t ht he => (R.ends hw).input ref _ hl l.node.value (by simp [Layout.formats]) t ht (he ▸ hp),
              fun he => (R.ends hw).rest ref l hl (by
                rw [hfl, length_scope, hlen] at he
                exact he ▸ hp)⟩)
            (by rw [hfl]; exact hρ) (by rw [hfl]; exact hst) htail
            (fun hw _ => by
              rw [hfl]
              exact inst_notEnd ((R.ends hw).head ref l hl) fun y _ => getD_notEnd (hρ hw) y)
            (fun h => absurd h hvs) hrun hF (by rw [hfl, hst.inst W.term hhead]; exact hchain)
          exact .list _ _ hl (fun _ => k1) (fun hw _ => k2 hw) k3
      · exact nomatch hrun
    | sized l =>
      obtain ⟨σ, items', hu, hall, rfl⟩ := hm
      have hlen := hcount' _ rfl
      simp only [layout] at hrun
      split at hrun
      · rename_i vs
        rw [intro_emit (by change PatsBelow (dins.length + _) _; rw [hlen]; exact hcl.1)] at hrun
        have hfl : (Env.child (.root dins) (freshList s.fresh l.intro)).flat = scope dins l.intro s := rfl
        have hx := pres_sizedItems extends_rel hext g (.child (.root dins) (freshList s.fresh l.intro)) vs l.items
          (emit (scope dins l.intro s) l.dataset (alloc l.intro s))
        have hrun' : sizedItems (dehydrateWith c n) g (.child (.root dins) (freshList s.fresh l.intro)) vs l.items
          (emit (scope dins l.intro s) l.dataset (alloc l.intro s)) = (.ok (), s') := hrun
        rw [hrun'] at hx
        have hst := layout_patterns W (by rw [hlen]; exact hcl.1) (extends_trans hx hF) hu
        obtain ⟨k1, k2⟩ := sized_kept W hrec hext (env := .child (.root dins) (freshList s.fresh l.intro))
          (by rw [hfl, length_scope, hlen]; exact hcl.2)
          (fun i hi => hgr _ (List.mem_map_of_mem hi))
          (fun hw i hi ρ hρ => format_notEnd R hw hl (List.mem_map_of_mem hi) hρ)
          (fun hw => by rw [hfl]; exact scope_notEnd (hne hw) _ _) (by rw [hfl]; exact hst) hrun hF hall
        exact .tuple _ _ hl k1 hall.length_eq.symm k2
      · exact nomatch hrun
    | sum l =>
      obtain ⟨σ, i, y, w', hu, _, hy, hvar, _, rfl⟩ := hm
      have hlen := hcount' _ rfl
      simp only [layout] at hrun
      rw [intro_emit (by change PatsBelow (dins.length + _) _; rw [hlen]; exact hcl.1)] at hrun
      have hfl : (Env.child (.root dins) (freshList s.fresh l.intro)).flat = scope dins l.intro s := rfl
      have hx := pres_variants extends_rel hext g (.child (.root dins) (freshList s.fresh l.intro)) v l.variants none
        (emit (scope dins l.intro s) l.dataset (alloc l.intro s))
      have hrun' : variants (dehydrateWith c n) g (.child (.root dins) (freshList s.fresh l.intro)) v l.variants none
        (emit (scope dins l.intro s) l.dataset (alloc l.intro s)) = (.ok (), s') := hrun
      rw [hrun'] at hx
      have hst := layout_patterns W (by rw [hlen]; exact hcl.1) (extends_trans hx hF) hu
      obtain ⟨-, hall, hone⟩ := variants_kept hext (env := .child (.root dins) (freshList s.fresh l.intro))
        (by rw [hfl, length_scope, hlen]; exact hcl.2) hrun
      rw [hfl] at hall hone
      have hclx : ∀ x ∈ l.variants, PatsBelow ((scope dins l.intro s).length + x.intro) x.dataset := by
        rw [length_scope, hlen]
        exact fun x hx => (hcl.2 x hx).1
      refine .variant hl hy fun hor => ?_
      obtain ⟨σ', huy, hsub⟩ := hvar
      have hok : ∃ s1 s2, call (dehydrateWith c n) g y.value (scope (scope dins l.intro s) y.intro s1) v (alloc y.intro s1) =
          (.ok (), s2) ∧ Extends s2 s' ∧ ∀ p ∈ y.dataset, quadInst (scope (scope dins l.intro s) y.intro s1) p ∈ s'.out := by
        rcases hall i y hy with h | ⟨s1, s2, e, he⟩
        · exact h
        · rcases hor with hor | hor
          · obtain ⟨j, z, hz, s1, s2, h1, h2, h3⟩ := hone rfl
            have hmz := match_written W (stands_scope hst z.intro s1)
              (by rw [length_scope]; exact hclx z (List.mem_of_getElem? hz)) fun p hp => hF.quads _ (h3 p hp)
            have hij := hap hor ref l hl none σ ⟨dins.map f, by rw [List.length_map]; exact hlen, hu.1⟩ i j y z σ' _ hy hz
              huy.1 (by rw [inGraph_none]; exact hmz)
            subst hij
            rw [hy] at hz
            injection hz with hz
            subst hz
            exact ⟨s1, s2, h1, h2, h3⟩
          · have := dehydrateWith_ne_err c hkeys R.closed hwt hor n
              (graphInst (scope (scope dins l.intro s) y.intro s1) g y.value.graph)
              (y.value.input.map (patInst (scope (scope dins l.intro s) y.intro s1))) (by
                intro l' k hl' hk
                obtain ⟨l'', h1, h2⟩ := hwt ref _ hl y.value (List.mem_map_of_mem (List.mem_of_getElem? hy))
                rw [h1] at hl'
                injection hl' with hl'
                subst hl'
                rw [List.length_map]
                exact h2 k hk) (alloc y.intro s1)
            unfold call at he
            rw [he] at this
            exact absurd trivial this
      obtain ⟨s1, s2, h1, h2, h3⟩ := hok
      have hst1 := stands_scope hst y.intro s1
      have hmy := match_written W hst1
        (by rw [length_scope]; exact hclx y (List.mem_of_getElem? hy)) fun p hp => hF.quads _ (h3 p hp)
      rw [inGraph_none] at huy
      have := huy.2 _ hmy
      subst this
      exact sub_kept W hrec (hgr _ (List.mem_map_of_mem (List.mem_of_getElem? hy))) (written_stands hst1) h1
        (extends_trans h2 hF) (fun hw => format_notEnd R hw hl (List.mem_map_of_mem (List.mem_of_getElem? hy))
          (scope_notEnd (scope_notEnd (hne hw) _ _) _ _)) hsub

/-- Where what is written determines what is read, what is read is what was written. -/
theorem exact {reg : Registry Term} {isIri : String → Bool} (hso : reg.Sorted) {ref : Term} {v : Value} {w : TypedValue Term}
    (h : Kept True True reg isIri ref v w) (hfix : ∀ ref', Reaches reg ref ref' → ∀ l, reg ref' = some l → l.Fixed)
    (hv : v.Sorted) (hne : v.NoEmptyList) : w.untype = v := by
  have sub : ∀ {ref l fmt}, reg ref = some l → fmt ∈ l.formats →
      (∀ ref', Reaches reg ref ref' → ∀ l, reg ref' = some l → l.Fixed) →
      ∀ ref', Reaches reg fmt.layout ref' → ∀ l, reg ref' = some l → l.Fixed := by
    intro ref l fmt hl hf h ref' hr
    refine h ref' ?_
    induction hr with
    | refl => exact .step (.refl _) hl hf
    | step _ h1 h2 ih => exact .step ih h1 h2
  induction h with
  | value l => rfl
  | @record ref l m m' hl h1 h2 h3 _ ih =>
    have hreq : ∀ e ∈ l.fields, e.2.required = true := hfix ref (.refl _) _ hl
    obtain ⟨hs1, hs2⟩ := sorted_map hv
    have hne' : ∀ e ∈ m, e.2.NoEmptyList := by cases hne; assumption
    have hs' : SortedKeys m' := (hso ref l hl).sublist h3
    have hval : ∀ k v f v', (k, v) ∈ m → (k, f) ∈ l.fields → (k, v') ∈ m' → v'.untype = v := fun k v f v' a b d =>
      ih k v f v' a b d (sub hl (List.mem_map_of_mem (f := fun e => e.2.value) b) hfix) (hs2 _ a) (hne' _ a)
    simp only [TypedValue.untype, Value.map.injEq]
    rw [TypedValue.untypeMap_eq]
    have hkeys : (m'.map fun e => (e.1, e.2.untype)).map Prod.fst = m'.map Prod.fst := by simp
    have hst : SortedKeys (m'.map fun e => (e.1, e.2.untype)) := by unfold SortedKeys; rw [hkeys]; exact hs'
    have hmem : ∀ e, e ∈ (m'.map fun e => (e.1, e.2.untype)) ↔ e ∈ m := by
      rintro ⟨k, v⟩
      constructor
      · intro he
        obtain ⟨⟨k', v'⟩, he', heq⟩ := List.mem_map.1 he
        simp only [Prod.mk.injEq] at heq
        obtain ⟨rfl, rfl⟩ := heq
        obtain ⟨⟨k'', f⟩, hf, hk⟩ := List.mem_map.1 (h3.subset (List.mem_map_of_mem (f := Prod.fst) he'))
        simp only at hk
        subst hk
        obtain ⟨v, hv⟩ := h2 _ f hf (hreq _ hf)
        rw [hval _ v f v' hv hf he']
        exact hv
      · intro he
        obtain ⟨f, v', hf, hv'⟩ := h1 k v he
        exact List.mem_map.2 ⟨(k, v'), hv', by rw [hval k v f v' he hf hv']⟩
    have hp : List.Perm (m'.map fun e => (e.1, e.2.untype)) m :=
      (List.perm_ext_iff_of_nodup (List.Nodup.of_map _ (RoundTrip.SortedKeys.nodup hst)) (List.Nodup.of_map _ (RoundTrip.SortedKeys.nodup hs1))).2 hmem
    refine hp.eq_of_pairwise (le := fun a b => Value.le a.1 b.1 = true ∧ a.1 ≠ b.1) ?_
      (List.pairwise_map.1 hst) (List.pairwise_map.1 hs1)
    intro a b _ _ hab hba
    have := lexLe_antisymm _ _ hab.1 hba.1
    exact absurd (Value.prefixFree a.1 b.1 [] [] (by rw [this])).1 hab.2
  | @set ref l vs ws place hl _ _ _ => exact absurd (hfix ref (.refl _) _ hl) id
  | @list ref l vs ws hl h1 h2 _ ih =>
    cases hne with
    | list _ hvs hne =>
    cases hv with
    | list _ hv =>
    simp only [TypedValue.untype, Value.list.injEq]
    rw [TypedValue.untypeList_eq]
    refine List.ext_getElem? fun i => ?_
    rw [List.getElem?_map]
    have hlen := h2 trivial hvs
    by_cases hi : i < vs.length
    · rw [List.getElem?_eq_getElem hi, List.getElem?_eq_getElem (by omega)]
      simp only [Option.map_some, Option.some.injEq]
      exact ih i _ _ (List.getElem?_eq_getElem hi) (List.getElem?_eq_getElem (by omega))
        (sub hl (by simp [Layout.formats]) hfix) (hv _ (List.getElem_mem hi)) (hne _ (List.getElem_mem hi))
    · rw [List.getElem?_eq_none (by omega), List.getElem?_eq_none (by omega)]
      rfl
  | @tuple ref l vs ws hl h1 h2 _ ih =>
    cases hne with
    | list _ hvs hne =>
    cases hv with
    | list _ hv =>
    simp only [TypedValue.untype, Value.list.injEq]
    rw [TypedValue.untypeList_eq]
    refine List.ext_getElem? fun i => ?_
    rw [List.getElem?_map]
    by_cases hi : i < vs.length
    · rw [List.getElem?_eq_getElem hi, List.getElem?_eq_getElem (by omega)]
      simp only [Option.map_some, Option.some.injEq]
      exact ih i _ _ _ (List.getElem?_eq_getElem (by omega)) (List.getElem?_eq_getElem hi)
        (List.getElem?_eq_getElem (by omega)) (sub hl (List.mem_map_of_mem (List.getElem_mem _)) hfix)
        (hv _ (List.getElem_mem hi)) (hne _ (List.getElem_mem hi))
    · rw [List.getElem?_eq_none (by omega), List.getElem?_eq_none (by omega)]
      rfl
  | @variant ref l j x v w hl hx _ ih =>
    exact ih (.inl trivial) (sub hl (List.mem_map_of_mem (List.mem_of_getElem? hx)) hfix) hv hne
  | always v w hl => exact absurd (hfix _ (.refl _) _ hl) id

end Verif.Keeping
