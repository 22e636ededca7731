import Verif.HydrateOk

/-! # When hydration cannot panic -/

set_option linter.unusedSectionVars false
set_option linter.unusedSimpArgs false

namespace Verif

variable {R : Type _}

/-- Every variable of `p` is in the set `B` of bound variables. -/
def Pattern.BoundIn (B : Nat → Prop) (p : Pattern R) : Prop := ∀ x ∈ p.vars, B x

/-- Every variable of the format is bound. -/
def ValueFormat.BoundIn (B : Nat → Prop) (f : ValueFormat R) : Prop :=
  (∀ p ∈ f.input, p.BoundIn B) ∧ ∀ p, f.graph = some (some p) → p.BoundIn B

/-- Inputs, and the variables that occur in the patterns. -/
def boundVars (k : Nat) (pats : List (QuadPat R)) (x : Nat) : Prop := x < k ∨ x ∈ patsVars pats

/-- Each variable used by a layout to denote a resource is an input or occurs in a pattern matched before. Sum layouts
and byte string layouts are excluded. -/
def Layout.Safe : Layout R → Prop
  | .never => True
  | .unit _ => True
  | .boolean l => l.resource.BoundIn (boundVars 1 l.dataset)
  | .number l => l.resource.BoundIn (boundVars 1 l.dataset)
  | .byteString _ => False
  | .textString l => l.resource.BoundIn (boundVars 1 l.dataset)
  | .id l => l.resource.BoundIn (boundVars 1 l.dataset)
  | .product l => ∀ e ∈ l.fields, e.2.value.BoundIn (boundVars l.input (l.dataset ++ e.2.dataset))
  | .unordered l => l.item.value.BoundIn (boundVars l.input (l.dataset ++ l.item.dataset))
  | .ordered l => l.head.BoundIn (boundVars l.input l.dataset) ∧ l.tail.BoundIn (boundVars l.input l.dataset) ∧
      l.node.value.BoundIn (fun x => boundVars l.input (l.dataset ++ l.node.dataset) x ∨ x = l.input + l.intro) ∧
      l.input + l.intro + 1 ∈ patsVars l.node.dataset
  | .sized l => ∀ i ∈ l.items, i.value.BoundIn (boundVars l.input (l.dataset ++ i.dataset))
  | .sum _ => False
  | .always => True

/-- Literals are unambiguous and lexically valid, and identifier layouts only meet resources with one IRI. -/
structure HyCtx.Safe (c : HyCtx R) : Prop where
  reg : ∀ ref l, c.reg ref = some l → l.Safe
  noLang : ∀ r, ∀ lit ∈ c.literalsOf r, ∃ i, lit.type = .any i
  single : ∀ r, (c.literalsOf r).length ≤ 1
  boolType : ∀ ref l, c.reg ref = some (.boolean l) → ∀ i ∈ c.irisOf l.datatype, i = c.xsd.boolean
  boolLex : ∀ r, ∀ lit ∈ c.literalsOf r, lit.type = .any c.xsd.boolean → (c.xsd.parseBoolean lit.value).isSome
  decLex : ∀ r, ∀ lit ∈ c.literalsOf r, ∀ i, lit.type = .any i → c.xsd.isDecimal i = true →
    (c.xsd.parseDecimal lit.value).isSome
  ids : ∀ ref l, c.reg ref = some (.id l) → ∀ r, ∃ i, c.irisOf r = [i]

theorem Out.bind_ne_panic {ε α β} {x : Out ε α} {f : α → Out ε β} (hx : x ≠ .panic)
    (hf : ∀ a, x = .ok a → f a ≠ .panic) : x.bind f ≠ .panic := by
  cases x with
  | ok a => exact hf a rfl
  | err e => simp
  | panic => exact absurd rfl hx
  | fuel => simp

theorem Out.map_ne_panic {ε α β} {x : Out ε α} {f : α → β} (hx : x ≠ .panic) : x.map f ≠ .panic := by
  cases x <;> simp_all [Out.map]

namespace Hydrate

variable [DecidableEq R] (c : HyCtx R)

theorem uniqueMatch_ne_panic (frag : DataFragment R) (σ : Subst R) (pats : List (QuadPat R))
    (g : Option R) (hd : Declared σ (withDefaultGraph pats g)) : uniqueMatch c frag σ pats g ≠ .panic := by
  unfold uniqueMatch
  rw [ne_eq, Out.mapErr_eq_panic, Matching.intoUnique_eq _ _ _ hd]
  split <;> simp

theorem requiredMatch_ne_panic (frag : DataFragment R) (σ : Subst R) (pats : List (QuadPat R))
    (g : Option R) (hd : Declared σ (withDefaultGraph pats g)) : requiredMatch c frag σ pats g ≠ .panic := by
  unfold requiredMatch
  rw [ne_eq, Out.mapErr_eq_panic, Matching.intoRequiredUnique]
  have := Matching.intoUnique_eq c.ds _ _ hd
  rw [this]
  split <;> simp_all

/-- The variables bound after a match. -/
theorem IsMatch.bound {ds : List (Quad R)} {σ₀ σ : Subst R} {pats : List (QuadPat R)} {g : Option R}
    (h : IsMatch ds σ₀ (inGraph g pats) σ) {x : Nat} (hx : (∃ r, σ₀.get x = some r) ∨ x ∈ patsVars pats) :
    ∃ r, σ.get x = some r := by
  rcases hx with ⟨r, hr⟩ | hx
  · exact ⟨r, h.keeps x r hr⟩
  · rw [← patsVars_withDefaultGraph g, ← inGraph_eq] at hx
    simp only [patsVars, List.mem_flatMap] at hx
    obtain ⟨p, hp, hx⟩ := hx
    obtain ⟨q, -, hd⟩ := h.sat p hp
    obtain ⟨s, pr, o, gr⟩ := p
    obtain ⟨s', pr', o', gr'⟩ := q
    have key : ∀ (a : Pattern R) (r : R), a.Denotes σ.get r → x ∈ a.vars → ∃ r, σ.get x = some r := by
      intro a r ha hxa
      cases a with
      | res _ => simp [Pattern.vars] at hxa
      | var y =>
        simp only [Pattern.vars, List.mem_singleton] at hxa
        subst hxa
        exact ⟨r, ha⟩
    simp only [QuadPat.Denotes] at hd
    obtain ⟨h1, h2, h3, h4⟩ := hd
    simp only [QuadPat.vars, List.mem_append] at hx
    rcases hx with hx | hx | hx | hx
    · exact key _ _ h1 hx
    · exact key _ _ h2 hx
    · exact key _ _ h3 hx
    · cases gr with
      | none => simp at hx
      | some gp =>
        cases gr' with
        | none => simp at h4
        | some gr' => exact key gp gr' (by simpa using h4) (by simpa using hx)

theorem resource_ne_panic {p : Pattern R} {σ : Subst R} {B : Nat → Prop} (h : p.BoundIn B)
    (hB : ∀ x, B x → ∃ r, σ.get x = some r) : resource p σ ≠ .panic := by
  unfold resource
  cases p with
  | res r => simp [Pattern.value, Pattern.apply, Pattern.intoResource]
  | var x =>
    obtain ⟨r, hr⟩ := hB x (h x (by simp [Pattern.vars]))
    simp [Pattern.value, Pattern.apply, hr, Pattern.intoResource]

theorem subValue_ne_panic {rec : Rec R} (hrec : ∀ g r i, rec g r i ≠ .panic) {g : Option R} {fmt : ValueFormat R}
    {σ : Subst R} {B : Nat → Prop} (h : fmt.BoundIn B) (hB : ∀ x, B x → ∃ r, σ.get x = some r) :
    subValue rec g fmt σ ≠ .panic := by
  unfold subValue
  refine Out.bind_ne_panic ?_ fun ins _ => Out.bind_ne_panic ?_ fun g' _ => hrec _ _ _
  · have h1 := h.1
    unfold selectInputs
    revert h1
    generalize fmt.input = ps
    intro h1
    induction ps with
    | nil => simp [Out.mapM']
    | cons p ps ih =>
      simp only [List.forall_mem_cons] at h1
      exact Out.bind_ne_panic (resource_ne_panic h1.1 hB) fun _ _ => Out.bind_ne_panic (ih h1.2) fun _ _ => by simp
  · unfold selectGraph
    split
    · simp
    · simp
    · rename_i p hp
      exact Out.map_ne_panic (resource_ne_panic (h.2 p hp) hB)

theorem scanLiterals_ne_panic {α} {parse : String → String → Out (HyError R) α} {types : List String}
    {ls : List RdfLit} (hlang : ∀ lit ∈ ls, ∃ i, lit.type = .any i) (hlen : ls.length ≤ 1)
    (hparse : ∀ lit ∈ ls, ∀ i ∈ types, lit.type = .any i → parse lit.value i ≠ .panic) :
    scanLiterals parse types ls none ≠ .panic := by
  match ls with
  | [] => simp [scanLiterals]
  | [l] =>
    obtain ⟨i, hi⟩ := hlang l (by simp)
    simp only [scanLiterals, hi]
    split
    · rename_i hany
      simp only [List.any_eq_true, beq_iff_eq] at hany
      obtain ⟨j, hj, rfl⟩ := hany
      exact Out.bind_ne_panic (hparse l (by simp) _ hj hi) fun _ _ => by simp
    · simp
  | _ :: _ :: _ => simp at hlen

theorem hydrateData_ne_panic {α} (hs : c.Safe) {parse : String → String → Out (HyError R) α}
    {mk : α → TypedLiteral R} {g : Option R} {ref : R} {l : DataLayout R} {inputs : List R}
    (hi : inputs.length = 1) (hds : c.ds.Nodup) (hc : PatsBelow (1 + l.intro) l.dataset)
    (hb : l.resource.BoundIn (boundVars 1 l.dataset))
    (hparse : ∀ r, ∀ lit ∈ c.literalsOf r, ∀ i ∈ c.irisOf l.datatype, lit.type = .any i →
      parse lit.value i ≠ .panic) :
    hydrateData c g ref l inputs parse mk ≠ .panic := by
  have hd : Declared ((Subst.fromInputs inputs).intro l.intro) (withDefaultGraph l.dataset g) :=
    declared_of_below hc (by simp [length_intro, Subst.fromInputs, hi])
  unfold hydrateData
  refine Out.bind_ne_panic (requiredMatch_ne_panic c _ _ _ _ hd) fun σ hσ => Out.bind_ne_panic ?_ fun r _ =>
    Out.bind_ne_panic (scanLiterals_ne_panic (hs.noLang r) (hs.single r) (hparse r)) fun o _ => by
      cases o <;> simp
  have hm := ((requiredMatch_eq_ok c hds _ _ _ g hd σ).1 hσ).1
  refine resource_ne_panic hb fun x hx => IsMatch.bound hm ?_
  rcases hx with hx | hx
  · left
    match inputs, hi with
    | [r], _ =>
      obtain rfl : x = 0 := by omega
      exact ⟨r, rfl⟩
  · exact .inr hx

/-- Bound variables of an initial substitution. -/
theorem get_inputs {inputs : List R} {k x : Nat} (hx : x < inputs.length) :
    ∃ r, ((Subst.fromInputs inputs).intro k).get x = some r := by
  refine ⟨inputs[x], ?_⟩
  simp [Subst.get, Subst.fromInputs, Subst.intro, List.getElem?_append_left, hx]

theorem get_intro {σ : Subst R} {k x : Nat} {r : R} (h : σ.get x = some r) : (σ.intro k).get x = some r := by
  simp only [Subst.get, Subst.intro] at h ⊢
  have hx : x < σ.length := by
    by_contra hx
    simp [List.getElem?_eq_none (Nat.le_of_not_lt hx)] at h
  rw [List.getElem?_append_left hx]
  exact h

theorem hydrate_ne_panic (hs : c.Safe) (hreg : c.reg.Closed) (hds : c.ds.Nodup) (n : Nat) (g : Option R) (ref : R)
    (inputs : List R) : hydrate c n g ref inputs ≠ .panic := by
  induction n generalizing g ref inputs with
  | zero => simp [hydrate]
  | succ n ih =>
    unfold hydrate
    split
    · simp
    · rename_i l hl
      split
      · simp
      · rename_i hne
        have hcl := hreg ref l hl
        have hsl := hs.reg ref l hl
        have hi : ∀ k, l.inputCount = some k → inputs.length = k := by
          intro k hk
          rw [hk] at hne
          simp at hne
          exact hne.symm
        have hdecl : ∀ k m (pats : List (QuadPat R)), PatsBelow (k + m) pats → inputs.length = k →
            Declared ((Subst.fromInputs inputs).intro m) (withDefaultGraph pats g) := by
          intro k m pats h hk
          exact declared_of_below h (by simp [length_intro, Subst.fromInputs, hk])
        -- what is bound after the layout's own match, and after the match of a part
        have hroot : ∀ k m (pats : List (QuadPat R)) σ, inputs.length = k → PatsBelow (k + m) pats →
            requiredMatch c (.discriminant ref) ((Subst.fromInputs inputs).intro m) pats g = .ok σ →
            σ.length = k + m ∧ ∀ x, boundVars k pats x → ∃ r, σ.get x = some r := by
          intro k m pats σ hk hb hm
          have hm := ((requiredMatch_eq_ok c hds _ _ _ g (hdecl k m pats hb hk) σ).1 hm).1
          refine ⟨by rw [hm.length_eq]; simp [length_intro, Subst.fromInputs, hk], fun x hx => IsMatch.bound hm ?_⟩
          rcases hx with hx | hx
          · exact .inl (get_inputs (by omega))
          · exact .inr hx
        have hpart : ∀ k (pats pats' : List (QuadPat R)) (σ σ' : Subst R) j,
            (∀ x, boundVars k pats x → ∃ r, σ.get x = some r) →
            IsMatch c.ds (σ.intro j) (inGraph g pats') σ' →
            ∀ x, boundVars k (pats ++ pats') x → ∃ r, σ'.get x = some r := by
          intro k pats pats' σ σ' j h1 h2 x hx
          have : boundVars k pats x ∨ x ∈ patsVars pats' := by
            rcases hx with hx | hx
            · exact .inl (.inl hx)
            · simp only [patsVars, List.flatMap_append, List.mem_append] at hx
              rcases hx with hx | hx
              · exact .inl (.inr hx)
              · exact .inr hx
          refine IsMatch.bound h2 ?_
          rcases this with h | h
          · obtain ⟨r, hr⟩ := h1 x h
            exact .inl ⟨r, get_intro hr⟩
          · exact .inr h
        cases l with
        | never => simp [layout]
        | always => simp [layout]
        | unit l =>
          exact Out.bind_ne_panic (requiredMatch_ne_panic c _ _ _ _ (hdecl _ _ _ hcl (hi 1 rfl))) fun _ _ => by simp
        | boolean l =>
          refine Out.map_ne_panic (hydrateData_ne_panic c hs (hi 1 rfl) hds hcl.1 hsl ?_)
          intro r lit hlit i hit htype
          have hb := hs.boolType ref l hl i hit
          subst hb
          have := hs.boolLex r lit hlit htype
          unfold booleanValue
          rw [if_pos rfl]
          cases h : c.xsd.parseBoolean lit.value <;> simp_all
        | number l =>
          refine Out.map_ne_panic (hydrateData_ne_panic c hs (hi 1 rfl) hds hcl.1 hsl ?_)
          intro r lit hlit i hit htype
          unfold numberValue
          split
          · rename_i hd
            have := hs.decLex r lit hlit i htype hd
            cases h : c.xsd.parseDecimal lit.value <;> simp_all
          · simp
        | byteString l => exact hsl.elim
        | textString l =>
          exact Out.map_ne_panic (hydrateData_ne_panic c hs (hi 1 rfl) hds hcl.1 hsl fun _ _ _ _ _ _ => by
            simp [textStringValue])
        | id l =>
          refine Out.map_ne_panic ?_
          unfold hydrateId
          refine Out.bind_ne_panic (requiredMatch_ne_panic c _ _ _ _ (hdecl _ _ _ hcl.1 (hi 1 rfl))) fun σ hσ =>
            Out.bind_ne_panic (resource_ne_panic hsl (hroot 1 _ _ σ (hi 1 rfl) hcl.1 hσ).2) fun r _ => ?_
          obtain ⟨i, hi⟩ := hs.ids ref l hl r
          simp [hi]
        | sum l => exact hsl.elim
        | product l =>
          refine Out.bind_ne_panic (requiredMatch_ne_panic c _ _ _ _ (hdecl _ _ _ hcl.1 (hi _ rfl))) fun σ hσ =>
            Out.bind_ne_panic ?_ fun _ _ => by simp
          obtain ⟨hlen, hb⟩ := hroot _ _ _ σ (hi _ rfl) hcl.1 hσ
          have hf : ∀ e ∈ l.fields, PatsBelow (σ.length + e.2.intro) e.2.dataset ∧
              e.2.value.BoundIn (boundVars l.input (l.dataset ++ e.2.dataset)) := fun e he =>
            ⟨by rw [hlen]; exact (hcl.2 e he).1, hsl e he⟩
          revert hf
          generalize l.fields = fs
          intro hf
          induction fs with
          | nil => simp [fields]
          | cons e fs ihf =>
            obtain ⟨k, f⟩ := e
            simp only [List.forall_mem_cons] at hf
            have hd : Declared (σ.intro f.intro) (withDefaultGraph f.dataset g) :=
              declared_ext (σ := σ) hf.1.1 (by simp)
            unfold fields
            refine Out.bind_ne_panic (uniqueMatch_ne_panic c _ _ _ _ hd) fun o ho => ?_
            cases o with
            | none => simp only; split; · simp
                      exact ihf hf.2
            | some σ' =>
              have hm := ((uniqueMatch_eq_some c hds _ _ _ g hd σ').1 ho).1
              exact Out.bind_ne_panic (subValue_ne_panic ih hf.1.2 (hpart _ _ _ σ σ' _ hb hm)) fun _ _ =>
                Out.bind_ne_panic (ihf hf.2) fun _ _ => by simp
        | unordered l =>
          refine Out.bind_ne_panic (requiredMatch_ne_panic c _ _ _ _ (hdecl _ _ _ hcl.1 (hi _ rfl))) fun σ hσ => ?_
          obtain ⟨hlen, hb⟩ := hroot _ _ _ σ (hi _ rfl) hcl.1 hσ
          have hd : Declared (σ.intro l.item.intro) (withDefaultGraph l.item.dataset g) :=
            declared_ext (σ := σ) hcl.2.1 (by rw [hlen])
          simp only
          rw [unorderedItems_eq c _ g l.item.value _ _ (by omega) (Matching.inv_new hd), Matching.stackEnum_new]
          refine Out.bind_ne_panic ?_ fun _ _ => by simp
          have hmem := fun τ => (Matching.mem_enum c.ds _ _ hd τ).1
          rw [← inGraph_eq] at hmem
          revert hmem
          rw [inGraph_eq]
          generalize Matching.enum c.ds (withDefaultGraph l.item.dataset g) (σ.intro l.item.intro) = ms
          intro hmem
          induction ms with
          | nil => simp [Out.mapM']
          | cons τ ms ihm =>
            have h1 := hmem τ (by simp)
            rw [← inGraph_eq] at h1
            exact Out.bind_ne_panic (subValue_ne_panic ih hsl (hpart _ _ _ σ τ _ hb h1)) fun _ _ =>
              Out.bind_ne_panic (ihm fun τ' hτ' => hmem τ' (by simp [hτ'])) fun _ _ => by simp
        | ordered l =>
          refine Out.bind_ne_panic (requiredMatch_ne_panic c _ _ _ _ (hdecl _ _ _ hcl.1 (hi _ rfl))) fun σ hσ => ?_
          obtain ⟨hlen, hb⟩ := hroot _ _ _ σ (hi _ rfl) hcl.1 hσ
          refine Out.bind_ne_panic (resource_ne_panic hsl.1 hb) fun head _ =>
            Out.bind_ne_panic (resource_ne_panic hsl.2.1 hb) fun tail _ => Out.bind_ne_panic ?_ fun _ _ => by simp
          have hnodes : ∀ k head, nodes c (hydrate c n) g ref l.node σ tail k head ≠ .panic := by
            intro k
            induction k with
            | zero => intro head; unfold nodes; split <;> simp
            | succ k ihk =>
              intro head
              unfold nodes
              split
              · simp
              · have hd : Declared ((Subst.push σ (some head)).intro (1 + l.node.intro))
                    (withDefaultGraph l.node.dataset g) :=
                  declared_ext (σ := σ) hcl.2.2.2.1 (by simp [Subst.push, hlen]; omega)
                refine Out.bind_ne_panic (requiredMatch_ne_panic c _ _ _ _ hd) fun σ' hσ' => ?_
                have hm := ((requiredMatch_eq_ok c hds _ _ _ g hd σ').1 hσ').1
                have hb' : ∀ x, (boundVars l.input (l.dataset ++ l.node.dataset) x ∨ x = l.input + l.intro) →
                    ∃ r, σ'.get x = some r := by
                  rintro x (hx | rfl)
                  · refine hpart l.input l.dataset l.node.dataset (Subst.push σ (some head)) σ' (1 + l.node.intro) ?_ hm x hx
                    intro y hy
                    obtain ⟨r, hr⟩ := hb y hy
                    refine ⟨r, ?_⟩
                    simp only [Subst.get, Subst.push] at hr ⊢
                    have hx : y < σ.length := by
                      by_contra hx
                      simp [List.getElem?_eq_none (Nat.le_of_not_lt hx)] at hr
                    rw [List.getElem?_append_left hx]
                    exact hr
                  · refine IsMatch.bound hm (.inl ⟨head, get_intro ?_⟩)
                    simp [Subst.get, Subst.push, ← hlen]
                refine Out.bind_ne_panic (subValue_ne_panic ih hsl.2.2.1 hb') fun _ _ => Out.bind_ne_panic ?_
                  fun _ _ => Out.bind_ne_panic (ihk _) fun _ _ => by simp
                obtain ⟨r, hr⟩ := IsMatch.bound hm (.inr hsl.2.2.2)
                rw [hlen, hr]
                simp
          exact hnodes n head
        | sized l =>
          refine Out.bind_ne_panic (requiredMatch_ne_panic c _ _ _ _ (hdecl _ _ _ hcl.1 (hi _ rfl))) fun σ hσ =>
            Out.bind_ne_panic ?_ fun _ _ => by simp
          obtain ⟨hlen, hb⟩ := hroot _ _ _ σ (hi _ rfl) hcl.1 hσ
          have hf : ∀ e ∈ l.items, PatsBelow (σ.length + e.intro) e.dataset ∧
              e.value.BoundIn (boundVars l.input (l.dataset ++ e.dataset)) := fun e he =>
            ⟨by rw [hlen]; exact (hcl.2 e he).1, hsl e he⟩
          revert hf
          generalize l.items = fs
          generalize 0 = j
          intro hf
          induction fs generalizing j with
          | nil => simp [sizedItems]
          | cons f fs ihf =>
            simp only [List.forall_mem_cons] at hf
            have hd : Declared (σ.intro f.intro) (withDefaultGraph f.dataset g) :=
              declared_ext (σ := σ) hf.1.1 (by simp)
            unfold sizedItems
            refine Out.bind_ne_panic (requiredMatch_ne_panic c _ _ _ _ hd) fun σ' ho => ?_
            have hm := ((requiredMatch_eq_ok c hds _ _ _ g hd σ').1 ho).1
            exact Out.bind_ne_panic (subValue_ne_panic ih hf.1.2 (hpart _ _ _ σ σ' _ hb hm)) fun _ _ =>
                Out.bind_ne_panic (ihf _ hf.2) fun _ _ => by simp

end Hydrate

end Verif
