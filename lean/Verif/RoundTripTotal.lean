import Verif.RoundTripMain
import Verif.Props.Dehydrate

/-!
# The round trip of every conforming tree

`total`: a tree that conforms to a layout that writes trees is dehydrated, without ambiguity, and hydrated back.
-/

set_option linter.unusedSectionVars false
set_option linter.unusedSimpArgs false

namespace Verif.RoundTrip

open Dehydrate

variable {c : DeCtx} {F : DeState} {S : Term → Prop}

/-! ## Only the layouts that are reached matter -/

open Classical in
/-- The layouts that `root` refers to. -/
noncomputable def restrict (reg : Registry Term) (root : Term) : Registry Term :=
  fun ref => if Reaches reg root ref then reg ref else none

theorem restrict_eq {reg : Registry Term} {root ref : Term} (h : Reaches reg root ref) : restrict reg root ref = reg ref :=
  if_pos h

theorem of_restrict {reg : Registry Term} {root ref : Term} {l : Layout Term} (h : restrict reg root ref = some l) :
    Reaches reg root ref ∧ reg ref = some l := by
  unfold restrict at h
  split at h
  · exact ⟨‹_›, h⟩
  · simp at h

theorem layout_ctx (c : DeCtx) (reg : Registry Term) (rec : Rec) (v : Value) (g : Option IRes) (ref : Term) (ins : List IRes)
    (l : Layout Term) : layout { c with reg } rec v g ref ins l = layout c rec v g ref ins l := by
  cases l <;> rfl

theorem dehydrateWith_restrict (c : DeCtx) (root : Term) (n : Nat) (v : Value) (g : Option IRes) (ref : Term) (ins : List IRes)
    (h : Reaches c.reg root ref) :
    dehydrateWith { c with reg := restrict c.reg root } n v g ref ins = dehydrateWith c n v g ref ins := by
  induction n generalizing v g ref ins with
  | zero => rfl
  | succ n ih =>
    unfold dehydrateWith
    simp only [restrict_eq h]
    cases hl : c.reg ref with
    | none => rfl
    | some l =>
      simp only
      split
      · rfl
      · rw [layout_ctx]
        exact layout_congr c v g ref ins l fun f hf v g ins => ih v g f.layout ins (.step h hl hf)

/-! ## Layouts that write trees are well formed -/

theorem isVar_below {f : ValueFormat Term} {x k : Nat} (h : f.IsVar x) (hk : x < k) : f.Below k := by
  refine ⟨?_, ?_⟩
  · rw [h.1]; simpa [Pattern.Below, Pattern.vars] using hk
  · rw [h.2]; simp

theorem tree_closed {reg : Registry Term} {xsd : Xsd} {l : Layout Term} (h : l.Tree reg xsd) : l.Closed := by
  have hnil : ∀ k, PatsBelow k ([] : List (QuadPat Term)) := fun k => by simp [PatsBelow, patsVars]
  have hdata : ∀ {l : DataLayout Term}, l.Plain → PatsBelow (1 + l.intro) l.dataset ∧ l.resource.Below (1 + l.intro) := by
    rintro l ⟨h1, h2, h3⟩
    rw [h1, h2, h3]
    exact ⟨hnil _, by simp [Pattern.Below, Pattern.vars]⟩
  cases l with
  | never => exact h.elim
  | always => exact h.elim
  | byteString l => exact h.elim
  | unit l => change PatsBelow _ _; rw [h.1]; exact const_below h.2 0
  | boolean l => exact hdata h.1
  | number l => exact hdata h.1
  | textString l => exact hdata h.1
  | id l =>
    change PatsBelow _ _ ∧ _
    rw [h.1, h.2.1, h.2.2]
    exact ⟨hnil _, by simp [Pattern.Below, Pattern.vars]⟩
  | product l =>
    refine ⟨?_, fun e he => ?_⟩
    · rw [h.input, h.intro]; exact const_below h.const 0
    · rw [h.input, h.intro]
      have hself : e.2.OnSelf → PatsBelow (1 + 0 + e.2.intro) e.2.dataset ∧ e.2.value.Below (1 + 0 + e.2.intro) := by
        rintro ⟨h1, h2, h3⟩
        rw [h1, h2]
        exact ⟨hnil _, isVar_below h3 (by omega)⟩
      rcases h.fields e he with ⟨p, h1 | h1⟩ | h1
      · obtain ⟨h1, h2, h3⟩ := h1
        rw [h1, h2]
        exact ⟨patsBelow_link 2 0 1 p (by omega) (by omega), isVar_below h3 (by omega)⟩
      · exact hself h1.1
      · exact hself h1.1
  | unordered l =>
    obtain ⟨p, h1, h2, h3, h4, h5, h6⟩ := h
    refine ⟨?_, ?_, ?_⟩
    · rw [h3]; exact hnil _
    · rw [h1, h2, h4, h5]; exact patsBelow_link 2 0 1 p (by omega) (by omega)
    · rw [h1, h2, h4]; exact isVar_below h6 (by omega)
  | ordered l =>
    obtain ⟨first, rest, tail, h⟩ := h
    have hcl := IsChain.closed h
    obtain ⟨h1, h2, h3, h4, h5, -, h7, -⟩ := h
    refine ⟨?_, ?_, ?_, ?_⟩
    · rw [h3]; exact hnil _
    · rw [h1, h2, h4]; simp [Pattern.Below, Pattern.vars]
    · rw [h5]; simp [Pattern.Below, Pattern.vars]
    · rw [h1, h2, h7]; exact hcl
  | sized l =>
    obtain ⟨h1, h2, h3, h4, -⟩ := h
    refine ⟨?_, fun i hi => ?_⟩
    · rw [h1, h2]; exact const_below h3 0
    · obtain ⟨p, ⟨h5, h6, h7⟩, -⟩ := h4 i hi
      refine ⟨?_, ?_⟩
      · rw [h1, h2, h5, h6]; exact patsBelow_link 2 0 1 p (by omega) (by omega)
      · rw [h1, h2, h5]; exact isVar_below h7 (by omega)
  | sum l =>
    refine ⟨?_, fun x hx => ?_⟩
    · rw [h.input, h.intro]; exact const_below h.const 0
    · obtain ⟨h1, h2, h3⟩ := h.variants x hx
      rw [h.input, h.intro, h1]
      exact ⟨const_below h2 0, isVar_below h3 (by omega)⟩

theorem tree_formats {reg : Registry Term} {xsd : Xsd} {l : Layout Term} (h : l.Tree reg xsd) {f : ValueFormat Term}
    (hf : f ∈ l.formats) : f.input.length = 1 := by
  have key : ∀ {f : ValueFormat Term} {x}, f.IsVar x → f.input.length = 1 := fun h => by rw [h.1]; rfl
  cases l with
  | product l =>
    simp only [Layout.formats, List.mem_map] at hf
    obtain ⟨e, he, rfl⟩ := hf
    rcases h.fields e he with ⟨p, h1 | h1⟩ | h1
    · exact key h1.2.2
    · exact key h1.1.2.2
    · exact key h1.1.2.2
  | unordered l =>
    simp only [Layout.formats, List.mem_singleton] at hf
    subst hf
    obtain ⟨p, h⟩ := h
    exact key h.2.2.2.2.2
  | ordered l =>
    simp only [Layout.formats, List.mem_singleton] at hf
    subst hf
    obtain ⟨first, rest, tail, h⟩ := h
    exact key h.2.2.2.2.2.2.2.2
  | sized l =>
    simp only [Layout.formats, List.mem_map] at hf
    obtain ⟨i, hi, rfl⟩ := hf
    obtain ⟨p, hp, -⟩ := h.2.2.2.1 i hi
    exact key hp.2.2
  | sum l =>
    simp only [Layout.formats, List.mem_map] at hf
    obtain ⟨x, hx, rfl⟩ := hf
    exact key (h.variants x hx).2.2
  | _ => simp [Layout.formats] at hf

theorem tree_supported {reg : Registry Term} {xsd : Xsd} {l : Layout Term} (h : l.Tree reg xsd) : l.Supported xsd := by
  cases l with
  | boolean l => exact h.2
  | number l => exact h.2
  | textString l => exact h.2
  | byteString l => exact h.elim
  | _ => trivial

/-! ## Conforming trees -/

theorem conforms_restrict {reg : Registry Term} {root ref : Term} {isIri : String → Bool} {v : Value}
    (h : Conforms (restrict reg root) isIri ref v) : Conforms reg isIri ref v := by
  induction h with
  | unit h => exact .unit (of_restrict h).2
  | boolean b h => exact .boolean b (of_restrict h).2
  | number q h => exact .number q (of_restrict h).2
  | byteString q h => exact .byteString q (of_restrict h).2
  | textString q h => exact .textString q (of_restrict h).2
  | id q h h' => exact .id q (of_restrict h).2 h'
  | product m h h1 _ h3 ih => exact .product m (of_restrict h).2 h1 ih h3
  | unordered m h _ ih => exact .unordered m (of_restrict h).2 ih
  | ordered m h _ ih => exact .ordered m (of_restrict h).2 ih
  | sized m h h1 _ ih => exact .sized m (of_restrict h).2 h1 ih
  | sum x v h h1 _ ih => exact .sum x v (of_restrict h).2 h1 ih
  | always v h => exact .always v (of_restrict h).2

theorem rejects_not_conforms {R : Type} {reg : Registry R} {isIri : String → Bool} {ref : R} {l : Layout R} {v : Value}
    (hl : reg ref = some l) (h : l.rejects v = true) : ¬ Conforms reg isIri ref v := by
  intro hc
  cases hc with
  | product m hl' h1 _ _ =>
    rw [hl] at hl'
    obtain rfl := Option.some.inj hl'
    cases m with
    | nil => simp [Layout.rejects] at h
    | cons e m =>
      obtain ⟨k, w⟩ := e
      simp only [Layout.rejects, Bool.and_eq_true, decide_eq_true_eq] at h
      obtain ⟨f, hf⟩ := h1 k w (by simp)
      exact h.2 _ hf rfl
  | unit hl' => rw [hl] at hl'; obtain rfl := Option.some.inj hl'; simp [Layout.rejects] at h
  | boolean _ hl' => rw [hl] at hl'; obtain rfl := Option.some.inj hl'; simp [Layout.rejects] at h
  | number _ hl' => rw [hl] at hl'; obtain rfl := Option.some.inj hl'; simp [Layout.rejects] at h
  | byteString _ hl' => rw [hl] at hl'; obtain rfl := Option.some.inj hl'; simp [Layout.rejects] at h
  | textString _ hl' => rw [hl] at hl'; obtain rfl := Option.some.inj hl'; simp [Layout.rejects] at h
  | id _ hl' => rw [hl] at hl'; obtain rfl := Option.some.inj hl'; simp [Layout.rejects] at h
  | unordered _ hl' => rw [hl] at hl'; obtain rfl := Option.some.inj hl'; simp [Layout.rejects] at h
  | ordered _ hl' => rw [hl] at hl'; obtain rfl := Option.some.inj hl'; simp [Layout.rejects] at h
  | sized _ hl' => rw [hl] at hl'; obtain rfl := Option.some.inj hl'; simp [Layout.rejects] at h
  | sum _ _ hl' => rw [hl] at hl'; obtain rfl := Option.some.inj hl'; simp [Layout.rejects] at h
  | always _ hl' => rw [hl] at hl'; obtain rfl := Option.some.inj hl'; simp [Layout.rejects] at h

theorem uniquely_conforms {reg : Registry Term} {root : Term} {isIri : String → Bool} {ref : Term} {v : Value}
    (h : Conforms reg isIri ref v) (hr : Reaches reg root ref) (hrec : Recoverable reg ref v) :
    UniquelyConforms (restrict reg root) isIri ref v := by
  induction h with
  | unit h => exact .unit ((restrict_eq hr).trans h)
  | boolean b h => exact .boolean b ((restrict_eq hr).trans h)
  | number q h => exact .number q ((restrict_eq hr).trans h)
  | byteString q h => exact .byteString q ((restrict_eq hr).trans h)
  | textString q h => exact .textString q ((restrict_eq hr).trans h)
  | id q h h' => exact .id q ((restrict_eq hr).trans h) h'
  | product m h h1 _ h3 ih =>
    exact .product m ((restrict_eq hr).trans h) h1 (fun k v f hv hf => ih k v f hv hf
      (.step hr h (by simp only [Layout.formats, List.mem_map]; exact ⟨_, hf, rfl⟩)) (noEmpty_product h hrec k v f hv hf)) h3
  | unordered m h _ ih =>
    exact .unordered m ((restrict_eq hr).trans h) fun v hv => ih v hv (.step hr h (by simp [Layout.formats]))
      (noEmpty_unordered h hrec v hv)
  | ordered m h _ ih =>
    exact .ordered m ((restrict_eq hr).trans h) fun v hv => ih v hv (.step hr h (by simp [Layout.formats]))
      ((noEmpty_ordered h hrec).2 v hv)
  | sized m h h1 _ ih =>
    exact .sized m ((restrict_eq hr).trans h) h1 fun e he => ih e he
      (.step hr h (by simp only [Layout.formats, List.mem_map]; exact ⟨_, (List.of_mem_zip he).1, rfl⟩)) (noEmpty_sized h hrec e he)
  | @sum ref l y v h hy hconf ih =>
    rcases recoverable_sum h hrec with hnil | ⟨before, x, after, hv, hrej, hrec'⟩
    · rw [hnil] at hy; simp at hy
    · have hno : ∀ z ∈ before ++ after, ¬ Conforms reg isIri z.value.layout v := by
        intro z hz
        obtain ⟨l', hl', hm⟩ := hrej z hz
        exact rejects_not_conforms hl' hm
      have hxy : y = x := by
        rw [hv, List.mem_append, List.mem_cons] at hy
        rcases hy with hy | rfl | hy
        · exact absurd hconf (hno y (by simp [hy]))
        · rfl
        · exact absurd hconf (hno y (by simp [hy]))
      subst hxy
      exact .sum before after y v ((restrict_eq hr).trans h) hv
        (ih (.step hr h (by simp only [Layout.formats, List.mem_map]; exact ⟨_, hy, rfl⟩)) hrec')
        fun z hz hc => hno z hz (conforms_restrict hc)
  | always v h => exact .always v ((restrict_eq hr).trans h)

/-- No two terms are assigned to the same resource. -/
theorem no_conflict (hT : TreeSet c S) (hsort : c.reg.Sorted) {n : Nat} {ref : Term} {v : Value} {s : DeState} (hS : S ref)
    (hne : Recoverable c.reg ref v) (hv : v.Sorted)
    (hrun : dehydrateWith c n v none ref [.input 0] ⟨[], [], 0⟩ = (.ok (), s)) : ¬ Conflict s := by
  obtain ⟨own, ns, h3, h4, -, -, -, h5, -⟩ := rep_run (F := s) hT hsort n ref (.input 0) v ⟨[], [], 0⟩ s (fun _ _ => False)
    hS hne hv hrun ⟨by simp, by simp⟩ ⟨by simp, by simp⟩ (by simp [NoTerms]) (by simp) (by simp) (by simp)
    ⟨fun _ h => h, fun _ h => h, fun _ h _ _ _ _ => h, fun _ h _ _ _ _ => h⟩ ⟨fun _ h _ => .inl h, fun _ h => h⟩
  have hfoot := foot_dehydrateWith c n (· ∈ [IRes.input 0]) 0 v none ref [.input 0] ⟨[], [], 0⟩ (Nat.le_refl _) fun _ h => .inl h
  rw [hrun] at hfoot
  rintro ⟨r, t, t', ht, hne', rfl | ht'⟩
  · exact h5 _ ht t' rfl
  · have hsingle : Single s r := by
      rcases hfoot.terms _ ht with h | h | ⟨t0, h⟩ | ⟨i, h, h1, h2⟩
      · simp at h
      · simp only [List.mem_singleton] at h
        subst h
        exact h3.single
      · exact absurd h (h5 _ ht t0)
      · simp only at h
        subst h
        exact h4.single i h1 h2
    exact hne' (hsingle t t' ht ht')

/-- A conforming tree is dehydrated: there is no ambiguity. -/
theorem accepts (c : DeCtx) (hsort : c.reg.Sorted) (ref : Term) (htree : TreeLayouts c.reg c.xsd ref)
    (hacyclic : c.reg.AcyclicSums) (v : Value) (hv : v.Sorted) (hconf : Conforms c.reg c.isIri ref v)
    (hp : v.Printable c.xsd) (hne : Recoverable c.reg ref v) :
    ∃ N, ∀ n, N ≤ n → ∀ o, ∃ dataset subject, dehydrate c n v ref o = .ok (dataset, [subject]) := by
  have hT : TreeSet c (Reaches c.reg ref) := ⟨htree, fun ref' l f h1 h2 h3 => .step h1 h2 h3⟩
  have htree' : ∀ ref' l, restrict c.reg ref ref' = some l → l.Tree c.reg c.xsd := by
    intro ref' l h
    obtain ⟨h1, h2⟩ := of_restrict h
    obtain ⟨l', h3, h4⟩ := htree ref' h1
    rw [h2] at h3
    obtain rfl := Option.some.inj h3
    exact h4
  obtain ⟨N, hN⟩ := Props.C11_conforming_accepted { c with reg := restrict c.reg ref }
    (fun ref' l h => SortedKeys.nodup (hsort ref' l (of_restrict h).2))
    (fun ref' l h => tree_closed (htree' ref' l h))
    (by
      intro ref' l h f hf
      obtain ⟨h1, h2⟩ := of_restrict h
      have h3 : Reaches c.reg ref f.layout := .step h1 h2 hf
      obtain ⟨l', h4, h5⟩ := htree _ h3
      refine ⟨l', (restrict_eq h3).trans h4, fun k hk => ?_⟩
      rw [tree_formats (htree' _ _ h) hf]
      rw [tree_inputCount h5] at hk
      exact Option.some.inj hk)
    (by
      obtain ⟨rank, hr⟩ := hacyclic
      exact ⟨rank, fun ref' l h => hr ref' l (of_restrict h).2⟩)
    (fun ref' l h => tree_supported (htree' ref' l h)) ref v (uniquely_conforms hconf (.refl ref) hne) hp
  obtain ⟨l, hl, hlt⟩ := htree ref (.refl ref)
  refine ⟨N, fun n hn o => ?_⟩
  obtain ⟨s, hs⟩ := hN n hn none [.input 0] ⟨[], [], 0⟩ (by
    intro l' k h1 h2
    have := (of_restrict h1).2
    rw [hl] at this
    obtain rfl := Option.some.inj this
    rw [tree_inputCount hlt] at h2
    simpa using h2)
  rw [dehydrateWith_restrict c ref n v none ref [.input 0] (.refl ref)] at hs
  have hno := no_conflict hT hsort (.refl ref) hne hv hs
  unfold dehydrate
  rw [hl]
  simp only [tree_inputCount hlt, Option.getD_some]
  have h0 : (List.range 1).map IRes.input = [IRes.input 0] := rfl
  rw [h0, hs]
  simp only
  rw [if_neg (by rw [ambiguous_iff]; exact hno)]
  rcases h1 : mapQuads o (o.order s.out) (initialMap s.terms, 0) with ⟨qs, st⟩
  rcases h2 : mapInputs o (List.range 1) st with ⟨values, st'⟩
  obtain ⟨f, hf, hqs, hvals⟩ := naming_spec o s hno _ _ h1 h2
  refine ⟨toSet qs, f (.input 0), ?_⟩
  simp only [h2, hvals]
  rfl

theorem total (c : DeCtx) (le : TypedValue Term → TypedValue Term → Bool) (o : DeOptions) (hx : XsdLaws c.xsd)
    (hsort : c.reg.Sorted) (hb : BlankNames o) (hord : ∀ l, (o.order l).Perm l) (ref : Term)
    (htree : TreeLayouts c.reg c.xsd ref) (hacyclic : c.reg.AcyclicSums) (v : Value) (hv : v.Sorted)
    (hconf : Conforms c.reg c.isIri ref v) (hp : v.Printable c.xsd) (hne : Recoverable c.reg ref v)
    (hid : ∀ n, (nodeIds c.reg n ref v).Nodup) :
    ∃ N, ∀ n, N ≤ n → ∃ dataset subject w M, dehydrate c n v ref o = .ok (dataset, [subject]) ∧
      (∀ m, M ≤ m → Hydrate.hydrate (HyCtx.ofTerms c.reg c.xsd le dataset) m none ref [subject] = .ok w) ∧
      SameTree c.reg ref v w.untype := by
  obtain ⟨N, hN⟩ := accepts c hsort ref htree hacyclic v hv hconf hp hne
  refine ⟨N, fun n hn => ?_⟩
  obtain ⟨D, sub, hd⟩ := hN n hn o
  obtain ⟨w, M, h1, h2⟩ := round_trip c le o hx hsort hb hord ref htree n v hv hne (hid n) D [sub] hd
  exact ⟨D, sub, w, M, hd, h1, h2⟩

end Verif.RoundTrip
