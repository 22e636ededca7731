import Verif.Reproduce
import Verif.DehydrateConform
import Verif.DehydrateNaming

/-! # Writing back what was read: names, and acceptance -/

set_option linter.unusedSectionVars false
set_option linter.unusedSimpArgs false

namespace Verif.Reproduce

open Verif.Dehydrate

variable {P : Term → Prop} {ds : List (Quad Term)}

/-- What the resources stand for at the start. -/
def start (inputs : List Term) : IRes → Term
  | .term t => t
  | .input i => inputs.getD i (.blank "")
  | .anon _ => .blank ""

theorem map_start (inputs : List Term) : ((List.range inputs.length).map .input).map (start inputs) = inputs := by
  apply List.ext_getElem
  · simp
  · intro i h1 h2
    simp [start, h2]

/-- The terms given to the resources, against what the resources stand for. -/
theorem origin_of {W : Term → Term → Prop} (hrefl : ∀ t, W t t) {o : DeOptions} {s : DeState} {used : IRes → Prop}
    {f : IRes → Term} (hn : IsNaming o s used f) (hdis : DistinctNames o) (h : IRes → Term)
    (hterm : ∀ t, h (.term t) = t) (hw : ∀ e ∈ s.terms, W (h e.1) e.2) :
    ∃ b : Term → Term, ∀ r, used r →
      (W (h r) (f r) ∨ h r = b (f r) ∧ ∃ i, f r = o.generator i ∨ f r = o.inputTerm i) := by
  classical
  let Free : IRes → Prop := fun r => used r ∧ (∀ t, (r, t) ∉ s.terms) ∧ ∀ t, r ≠ .term t
  have huniq : ∀ r r', Free r → Free r' → f r = f r' → r = r' := by
    obtain ⟨pos, h1, h2⟩ := hn.generated
    rintro r r' ⟨hu, hf, ht⟩ ⟨hu', hf', ht'⟩ he
    cases r with
    | term t => exact absurd rfl (ht t)
    | input i =>
      cases r' with
      | term t => exact absurd rfl (ht' t)
      | input j =>
        rw [hn.input i hu hf, hn.input j hu' hf'] at he
        rw [hdis.input _ _ he]
      | anon j =>
        rw [hn.input i hu hf, h1 j hu' hf'] at he
        exact absurd he.symm (hdis.ne _ _)
    | anon i =>
      cases r' with
      | term t => exact absurd rfl (ht' t)
      | input j =>
        rw [h1 i hu hf, hn.input j hu' hf'] at he
        exact absurd he (hdis.ne _ _)
      | anon j =>
        rw [h1 i hu hf, h1 j hu' hf'] at he
        rw [h2 i j hu hf hu' hf' (hdis.generator _ _ he)]
  refine ⟨fun t => if hx : ∃ r, Free r ∧ f r = t then h hx.choose else t, fun r hu => ?_⟩
  by_cases hass : ∃ t, (r, t) ∈ s.terms
  · obtain ⟨t, ht⟩ := hass
    left
    rw [hn.assigned r t ht]
    exact hw _ ht
  · have hfree : ∀ t, (r, t) ∉ s.terms := fun t ht => hass ⟨t, ht⟩
    cases r with
    | term t =>
      left
      rw [hn.term, hterm]
      exact hrefl t
    | input i =>
      right
      have hF : Free (.input i) := ⟨hu, hfree, fun t => by simp⟩
      have hex : ∃ r, Free r ∧ f r = f (.input i) := ⟨_, hF, rfl⟩
      refine ⟨?_, i, .inr (hn.input i hu hfree)⟩
      simp only [dif_pos hex]
      rw [huniq _ _ hex.choose_spec.1 hF hex.choose_spec.2]
    | anon i =>
      right
      have hF : Free (.anon i) := ⟨hu, hfree, fun t => by simp⟩
      have hex : ∃ r, Free r ∧ f r = f (.anon i) := ⟨_, hF, rfl⟩
      obtain ⟨pos, h1, _⟩ := hn.generated
      refine ⟨?_, pos i, .inl (h1 i hu hfree)⟩
      simp only [dif_pos hex]
      rw [huniq _ _ hex.choose_spec.1 hF hex.choose_spec.2]

theorem rel_map {q : Quad IRes} {f h : IRes → Term} {Q : Term → Term → Prop} (hs : Q (f q.s) (h q.s))
    (hp : Q (f q.p) (h q.p)) (ho : Q (f q.o) (h q.o)) (hg : ∀ g, q.g = some g → Q (f g) (h g)) :
    (q.map f).Rel Q (q.map h) := by
  refine ⟨hs, hp, ho, ?_⟩
  simp only [Quad.map]
  cases hg' : q.g with
  | none => trivial
  | some g => exact hg g hg'

/-- A layout that rejects a value does not accept it. -/
theorem not_conforms_of_rejects {reg : Registry Term} {isIri : String → Bool} {ref : Term} {l : Layout Term} {v : Value}
    (hl : reg ref = some l) (hr : l.rejects v = true) : ¬ Conforms reg isIri ref v := by
  intro h
  cases h with
  | unit h => rw [hl] at h; obtain rfl := Option.some.inj h; simp [Layout.rejects] at hr
  | boolean _ h => rw [hl] at h; obtain rfl := Option.some.inj h; simp [Layout.rejects] at hr
  | number _ h => rw [hl] at h; obtain rfl := Option.some.inj h; simp [Layout.rejects] at hr
  | byteString _ h => rw [hl] at h; obtain rfl := Option.some.inj h; simp [Layout.rejects] at hr
  | textString _ h => rw [hl] at h; obtain rfl := Option.some.inj h; simp [Layout.rejects] at hr
  | id _ h => rw [hl] at h; obtain rfl := Option.some.inj h; simp [Layout.rejects] at hr
  | product m h hk _ _ =>
    rw [hl] at h
    obtain rfl := Option.some.inj h
    cases m with
    | nil => simp [Layout.rejects] at hr
    | cons e m =>
      obtain ⟨k, w⟩ := e
      simp only [Layout.rejects, Bool.and_eq_true, decide_eq_true_eq] at hr
      obtain ⟨f, hf⟩ := hk k w (by simp)
      exact hr.2 _ hf rfl
  | unordered _ h => rw [hl] at h; obtain rfl := Option.some.inj h; simp [Layout.rejects] at hr
  | ordered _ h => rw [hl] at h; obtain rfl := Option.some.inj h; simp [Layout.rejects] at hr
  | sized _ h => rw [hl] at h; obtain rfl := Option.some.inj h; simp [Layout.rejects] at hr
  | sum _ _ h => rw [hl] at h; obtain rfl := Option.some.inj h; simp [Layout.rejects] at hr
  | always _ h => rw [hl] at h; obtain rfl := Option.some.inj h; simp [Layout.rejects] at hr

theorem not_conforms_of_declines {reg : Registry Term} {isIri : String → Bool} {ref : Term} {v : Value}
    (h : Declines reg ref v) : ¬ Conforms reg isIri ref v := by
  induction h with
  | kind hl hr => exact not_conforms_of_rejects hl hr
  | sum hl _ _ ih =>
    intro h
    cases h with
    | sum x _ h hx hc =>
      rw [hl] at h
      simp only [Option.some.injEq, Layout.sum.injEq] at h
      subst h
      exact ih x hx hc
    | unit h => rw [hl] at h; simp at h
    | boolean _ h => rw [hl] at h; simp at h
    | number _ h => rw [hl] at h; simp at h
    | byteString _ h => rw [hl] at h; simp at h
    | textString _ h => rw [hl] at h; simp at h
    | id _ h => rw [hl] at h; simp at h
    | product _ h => rw [hl] at h; simp at h
    | unordered _ h => rw [hl] at h; simp at h
    | ordered _ h => rw [hl] at h; simp at h
    | sized _ h => rw [hl] at h; simp at h
    | always _ h => rw [hl] at h; simp at h

/-- A tree that was read, when its sums are decided, is one that dehydration accepts. -/
theorem uniquelyConforms {reg : Registry Term} {isIri : String → Bool} {ref : Term} {v : TypedValue Term}
    (h : Annotated reg isIri ref v) (hd : WellDecided reg v) : UniquelyConforms reg isIri ref v.untype := by
  induction h with
  | unit h => exact .unit h
  | boolean b h => exact .boolean b h
  | number q h => exact .number q h
  | byteString b h => exact .byteString b h
  | textString t h => exact .textString t h
  | id t h hi => exact .id t h hi
  | @product ref l m h hk _ hreq ih =>
    cases hd with
    | map hd =>
    rw [TypedValue.untype, TypedValue.untypeMap_eq]
    refine .product _ h ?_ ?_ ?_
    · intro k v hv
      obtain ⟨e, he, heq⟩ := List.mem_map.1 hv
      obtain ⟨rfl, rfl⟩ := Prod.mk.inj heq
      exact hk _ _ he
    · intro k v f hv hf
      obtain ⟨e, he, heq⟩ := List.mem_map.1 hv
      obtain ⟨rfl, rfl⟩ := Prod.mk.inj heq
      exact ih _ _ f he hf (hd e he)
    · intro k f hf hr
      obtain ⟨v, hv⟩ := hreq k f hf hr
      exact ⟨_, List.mem_map.2 ⟨_, hv, rfl⟩⟩
  | @unordered ref l vs h _ ih =>
    cases hd with
    | list hd =>
    rw [TypedValue.untype, TypedValue.untypeList_eq]
    refine .unordered _ h fun v hv => ?_
    obtain ⟨w, hw, rfl⟩ := List.mem_map.1 hv
    exact ih w hw (hd w hw)
  | @ordered ref l vs h _ ih =>
    cases hd with
    | list hd =>
    rw [TypedValue.untype, TypedValue.untypeList_eq]
    refine .ordered _ h fun v hv => ?_
    obtain ⟨w, hw, rfl⟩ := List.mem_map.1 hv
    exact ih w hw (hd w hw)
  | @sized ref l vs h hlen _ ih =>
    cases hd with
    | list hd =>
    rw [TypedValue.untype, TypedValue.untypeList_eq]
    refine .sized _ h (by simpa using hlen) fun e he => ?_
    rw [List.zip_map_right] at he
    obtain ⟨e', he', rfl⟩ := List.mem_map.1 he
    exact ih e' he' (hd _ (List.of_mem_zip he').2)
  | @sum ref l y w i h hy _ ih =>
    cases hd with
    | @variant _ _ _ l' hl' hd hdecl =>
    rw [h] at hl'
    simp only [Option.some.injEq, Layout.sum.injEq] at hl'
    subst hl'
    obtain ⟨before, after, hsplit, hothers⟩ := split_variant hy
    refine .sum before after y _ h hsplit (ih hd) fun z hz => ?_
    obtain ⟨j, hj, hne⟩ := hothers z hz
    exact not_conforms_of_declines (hdecl j z hj hne)
  | always v h => exact .always _ h

end Verif.Reproduce
