import Verif.RoundTripNodes
import Verif.DehydrateOut
import Verif.DehydrateGraph

/-! # Dehydration writes a representation of the tree -/

set_option linter.unusedSectionVars false
set_option linter.unusedSimpArgs false

namespace Verif.RoundTrip

open Dehydrate

/-- `S` is closed under reference, and its layouts write trees. -/
structure TreeSet (c : DeCtx) (S : Term → Prop) : Prop where
  tree : ∀ ref, S ref → ∃ l, c.reg ref = some l ∧ l.Tree c.reg c.xsd
  step : ∀ ref l f, S ref → c.reg ref = some l → f ∈ l.formats → S f.layout

variable {c : DeCtx} {F : DeState} {S : Term → Prop}

theorem pair_eq {α : Type _} {R : α → α → Prop} {l : List α} (h : l.Pairwise R) {a b : α} (ha : a ∈ l) (hb : b ∈ l)
    (h1 : ¬ R a b) (h2 : ¬ R b a) : a = b := by
  induction l with
  | nil => simp at ha
  | cons x l ih =>
    rw [List.pairwise_cons] at h
    rcases List.mem_cons.1 ha with rfl | ha'
    · rcases List.mem_cons.1 hb with rfl | hb'
      · rfl
      · exact absurd (h.1 b hb') h1
    · rcases List.mem_cons.1 hb with rfl | hb'
      · exact absurd (h.1 a ha') h2
      · exact ih h.2 ha' hb'

theorem filterMap_one {α β : Type _} {f : α → Option β} {l : List α}
    (h : l.Pairwise fun a b => f a = none ∨ f b = none) :
    l.filterMap f = [] ∨ ∃ a b, a ∈ l ∧ f a = some b ∧ l.filterMap f = [b] := by
  induction l with
  | nil => exact .inl rfl
  | cons x l ih =>
    rw [List.pairwise_cons] at h
    cases hx : f x with
    | none =>
      rw [List.filterMap_cons_none hx]
      rcases ih h.2 with h1 | ⟨a, b, h1, h2, h3⟩
      · exact .inl h1
      · exact .inr ⟨a, b, List.mem_cons_of_mem _ h1, h2, h3⟩
    | some b =>
      rw [List.filterMap_cons_some hx]
      have : l.filterMap f = [] := by
        rw [List.filterMap_eq_nil_iff]
        intro a ha
        rcases h.1 a ha with h1 | h1
        · rw [hx] at h1; simp at h1
        · exact h1
      exact .inr ⟨x, b, by simp, hx, by rw [this]⟩

theorem requireKeys_state {ref : Term} {m : List (Value × Value)} {fields : List (Value × Field Term)} {s s' : DeState}
    (h : requireKeys ref m fields s = (.ok (), s')) : s' = s := by
  induction fields with
  | nil => simp only [requireKeys, DeM.pure, Prod.mk.injEq, true_and] at h; exact h.symm
  | cons e fs ih =>
    unfold requireKeys at h
    split at h
    · simp [DeM.fail] at h
    · exact ih h

theorem SortedKeys.nodup {α : Type _} {m : List (Value × α)} (h : SortedKeys m) : (m.map Prod.fst).Nodup :=
  List.Pairwise.imp (fun h => h.2) h

theorem eq_of_key {α : Type _} {m : List (Value × α)} (h : (m.map Prod.fst).Nodup) {k : Value} {a b : α} (ha : (k, a) ∈ m)
    (hb : (k, b) ∈ m) : a = b := by
  have := List.inj_on_of_nodup_map h ha hb rfl
  simpa using this

theorem lookup_eq {fields : List (Value × Field Term)} (h : (fields.map Prod.fst).Nodup) {k : Value} {f : Field Term}
    (hm : (k, f) ∈ fields) : lookup k fields = some f := by
  cases hl : lookup k fields with
  | none => exact absurd hl (lookup_of_mem hm)
  | some f' => rw [eq_of_key h hm (mem_of_lookup hl)]

theorem const_below {ds : List (QuadPat Term)} (h : ConstPats ds) (k : Nat) : PatsBelow (k + 1) ds := by
  intro x hx
  simp only [patsVars, List.mem_flatMap] at hx
  obtain ⟨q, hq, hx⟩ := hx
  obtain ⟨p, o, rfl⟩ := h q hq
  have : x = 0 := by simpa [QuadPat.vars, Pattern.vars] using hx
  omega

theorem mem_const {r : IRes} {ds : List (QuadPat Term)} (h : ConstPats ds) {s : DeState} {q : Quad IRes}
    (hq : q ∈ (emit [r] ds s).out) : q ∈ s.out ∨ q.s = r ∧ ∃ x ∈ ds, q = quadInst [r] x ∧
      ∀ p, q.p = .term p → x.p = .res p := by
  rcases mem_emit.1 hq with h1 | ⟨x, hx, rfl⟩
  · exact .inl h1
  · obtain ⟨p, o, rfl⟩ := h x hx
    refine .inr ⟨rfl, _, hx, rfl, ?_⟩
    intro p' hp
    simp only [quadInst, patInst, IRes.term.injEq] at hp
    rw [hp]

theorem bounded_const {r : IRes} {ds : List (QuadPat Term)} (h : ConstPats ds) {s : DeState} (hr : Old r s.fresh)
    (hb : Bounded s) : Bounded (emit [r] ds s) where
  quads q hq := by
    rcases mem_emit.1 hq with h1 | ⟨x, hx, rfl⟩
    · exact hb.quads q h1
    · obtain ⟨p, o, rfl⟩ := h x hx
      exact ⟨fun i e => hr.2 i e, by simp [quadInst, patInst], by simp [quadInst, patInst], by simp [quadInst]⟩
  terms := hb.terms

/-- The environment of a layout without introduced variables. -/
theorem isEnv_root (r : IRes) (k : Nat) : IsEnv (.child (.root [r]) (freshList k 0)) r := rfl

theorem own_of_none {r : IRes} (h : ∀ t, (r, t) ∉ F.terms) : Own F r [(r, none)] :=
  ⟨.inr ⟨none, rfl, by simp, fun _ => h⟩, fun t _ ht => absurd ht (h t)⟩

theorem in_self (r : IRes) (o : Option String) : In [(r, o)] r := by simp [In]

theorem extra_prop {E : Term → Term → Prop} {r : IRes} {q : Quad IRes} {p : Term} (h : Extra E r q) (hp : q.p = .term p) :
    ∃ o, E p o := by
  obtain ⟨p', o, hE, rfl⟩ := h
  simp only [lk, IRes.term.injEq] at hp
  exact ⟨o, hp ▸ hE⟩

theorem const_eq {r : IRes} {ds : List (QuadPat Term)} (h : ConstPats ds) {x : QuadPat Term} (hx : x ∈ ds) :
    ∃ p o, ⟨.var 0, .res p, .res o, none⟩ ∈ ds ∧ x.p = .res p ∧ quadInst [r] x = lk r p (.term o) := by
  obtain ⟨p, o, rfl⟩ := h x hx
  exact ⟨p, o, hx, rfl, rfl⟩

/-- What a layout states may be written by it. -/
theorem written_const {reg : Registry Term} {ref : Term} {l : Layout Term} (hl : reg ref = some l)
    (h : ConstPats l.statements) {r : IRes} {x : QuadPat Term} (hx : x ∈ l.statements) : Written reg ref r (quadInst [r] x) := by
  obtain ⟨p, o, h1, -, h2⟩ := const_eq (r := r) h hx
  exact ⟨p, .term o, h2, .inl ⟨o, rfl, .statement hl h1⟩⟩

theorem written_link {reg : Registry Term} {ref : Term} {l : Layout Term} (hl : reg ref = some l) {p : Term}
    (h : l.Links reg p) (r x : IRes) : Written reg ref r (lk r p x) :=
  ⟨p, x, rfl, .inr fun _ => .link hl h⟩

theorem mem_assign {r : IRes} {t : Term} {s s' : DeState} (h : assign r t s = (.ok (), s')) :
    s'.out = s.out ∧ s'.fresh = s.fresh ∧ ∀ e, e ∈ s'.terms ↔ e ∈ s.terms ∨ e = (r, t) := by
  unfold assign DeM.modify at h
  simp only [Prod.mk.injEq, true_and] at h
  subst h
  refine ⟨rfl, rfl, fun e => ?_⟩
  simp only
  split
  · rename_i h
    constructor
    · exact .inl
    · rintro (h1 | rfl)
      · exact h1
      · exact h
  · simp

theorem data_run {r : IRes} {l : DataLayout Term} (hl : l.Plain) {lit : List String → Out DeError RdfLit} {s s' : DeState}
    (h : data [r] l lit s = (.ok (), s')) :
    ∃ x, lit (irisOf s (.term l.datatype)) = .ok x ∧ s'.out = s.out ∧ s'.fresh = s.fresh ∧
      ∀ e, e ∈ s'.terms ↔ e ∈ s.terms ∨ e = (r, .literal x) := by
  obtain ⟨h1, h2, h3⟩ := hl
  rw [data_eq (by rw [h2]; simp [PatsBelow, patsVars]) (by rw [h3]; simp [Pattern.Below, Pattern.vars]; omega)] at h
  rw [h1, h2, h3, DeM.bind_eq_ok] at h
  obtain ⟨x, s1, h4, h5⟩ := h
  rw [DeM.read_eq_ok] at h4
  obtain ⟨h4, rfl⟩ := h4
  obtain ⟨h6, h7, h8⟩ := mem_assign h5
  exact ⟨x, h4, h6, h7, h8⟩

theorem ident_run {r : IRes} {l : IdLayout Term} (h1 : l.intro = 0) (h2 : l.dataset = []) (h3 : l.resource = .var 0)
    {t : String} {s s' : DeState} (h : ident c [r] l t s = (.ok (), s')) :
    s'.out = s.out ∧ s'.fresh = s.fresh ∧ ∀ e, e ∈ s'.terms ↔ e ∈ s.terms ∨ e = (r, .iri t) := by
  rw [ident_eq (by rw [h2]; simp [PatsBelow, patsVars]) (by rw [h3]; simp [Pattern.Below, Pattern.vars]; omega)] at h
  rw [h1, h2, h3] at h
  split at h
  · exact mem_assign h
  · simp [DeM.fail] at h

/-- A successful call runs the layout. -/
theorem run_layout {n : Nat} {v : Value} {ref : Term} {r : IRes} {l : Layout Term} {s s' : DeState}
    (hl : c.reg ref = some l) (h : dehydrateWith c (n + 1) v none ref [r] s = (.ok (), s')) :
    layout c (dehydrateWith c n) v none ref [r] l s = (.ok (), s') := by
  unfold dehydrateWith at h
  rw [hl] at h
  simp only at h
  split at h
  · simp [DeM.fail] at h
  · exact h

theorem idSpec_run (hT : TreeSet c S) (n : Nat) : IdSpec (0 < n) c S (dehydrateWith c n) (nodeIds c.reg n) := by
  intro ref l r v s s' hS hl hrun
  cases n with
  | zero => simp [dehydrateWith] at hrun
  | succ n =>
    replace hrun := run_layout hl hrun
    obtain ⟨l', hl', ht⟩ := hT.tree ref hS
    rw [hl] at hl'
    obtain rfl := Option.some.inj hl'
    obtain ⟨h1, h2, h3⟩ := ht
    simp only [layout] at hrun
    split at hrun
    · rename_i t
      obtain ⟨h4, h5, h6⟩ := ident_run h1 h2 h3 hrun
      exact ⟨Nat.succ_pos _, t, rfl, h4, h5, h6, by simp [nodeIds, hl]⟩
    · simp [DeM.fail] at hrun

theorem noEmpty_unordered {reg : Registry Term} {ref : Term} {l : UnorderedLayout Term} {vs : List Value}
    (hl : reg ref = some (.unordered l)) (h : Recoverable reg ref (.list vs)) :
    ∀ v ∈ vs, Recoverable reg l.item.value.layout v := by
  generalize hw : Value.list vs = w at h
  cases h with
  | leaf v h => have := h _ hl; simp [Layout.formats] at this
  | product m h _ => simp at hw
  | unordered us h h' =>
    rw [hl] at h
    simp only [Option.some.injEq, Layout.unordered.injEq] at h
    simp only [Value.list.injEq] at hw
    subst h hw
    exact h'
  | ordered us h _ _ => rw [hl] at h; simp at h
  | sized us h _ => rw [hl] at h; simp at h
  | sum v before x after h _ _ _ => rw [hl] at h; simp at h

theorem noEmpty_ordered {reg : Registry Term} {ref : Term} {l : OrderedLayout Term} {vs : List Value}
    (hl : reg ref = some (.ordered l)) (h : Recoverable reg ref (.list vs)) :
    vs ≠ [] ∧ ∀ v ∈ vs, Recoverable reg l.node.value.layout v := by
  generalize hw : Value.list vs = w at h
  cases h with
  | leaf v h => have := h _ hl; simp [Layout.formats] at this
  | product m h _ => simp at hw
  | unordered us h _ => rw [hl] at h; simp at h
  | ordered us h h1 h2 =>
    rw [hl] at h
    simp only [Option.some.injEq, Layout.ordered.injEq] at h
    simp only [Value.list.injEq] at hw
    subst h hw
    exact ⟨h1, h2⟩
  | sized us h _ => rw [hl] at h; simp at h
  | sum v before x after h _ _ _ => rw [hl] at h; simp at h

theorem noEmpty_sized {reg : Registry Term} {ref : Term} {l : SizedLayout Term} {vs : List Value}
    (hl : reg ref = some (.sized l)) (h : Recoverable reg ref (.list vs)) :
    ∀ e ∈ l.items.zip vs, Recoverable reg e.1.value.layout e.2 := by
  generalize hw : Value.list vs = w at h
  cases h with
  | leaf v h =>
    have := h _ hl
    simp only [Layout.formats, List.map_eq_nil_iff] at this
    simp [this]
  | product m h _ => simp at hw
  | unordered us h _ => rw [hl] at h; simp at h
  | ordered us h _ _ => rw [hl] at h; simp at h
  | sized us h h' =>
    rw [hl] at h
    simp only [Option.some.injEq, Layout.sized.injEq] at h
    simp only [Value.list.injEq] at hw
    subst h hw
    exact h'
  | sum v before x after h _ _ _ => rw [hl] at h; simp at h

theorem noEmpty_product {reg : Registry Term} {ref : Term} {l : ProductLayout Term} {m : List (Value × Value)}
    (hl : reg ref = some (.product l)) (h : Recoverable reg ref (.map m)) :
    ∀ k v f, (k, v) ∈ m → (k, f) ∈ l.fields → Recoverable reg f.value.layout v := by
  generalize hw : Value.map m = w at h
  cases h with
  | leaf v h =>
    have := h _ hl
    simp only [Layout.formats, List.map_eq_nil_iff] at this
    simp [this]
  | product m h h' =>
    rw [hl] at h
    simp only [Option.some.injEq, Layout.product.injEq] at h
    simp only [Value.map.injEq] at hw
    subst h hw
    exact h'
  | unordered us h _ => simp at hw
  | ordered us h _ _ => simp at hw
  | sized us h _ => simp at hw
  | sum v before x after h _ _ _ => rw [hl] at h; simp at h

theorem recoverable_sum {reg : Registry Term} {ref : Term} {l : SumLayout Term} {v : Value}
    (hl : reg ref = some (.sum l)) (h : Recoverable reg ref v) : l.variants = [] ∨
    ∃ before x after, l.variants = before ++ x :: after ∧
      (∀ y ∈ before ++ after, ∃ l', reg y.value.layout = some l' ∧ l'.rejects v = true) ∧
      Recoverable reg x.value.layout v := by
  cases h with
  | leaf v h =>
    have := h _ hl
    simp only [Layout.formats, List.map_eq_nil_iff] at this
    exact .inl this
  | product m h _ => rw [hl] at h; simp at h
  | unordered us h _ => rw [hl] at h; simp at h
  | ordered us h _ _ => rw [hl] at h; simp at h
  | sized us h _ => rw [hl] at h; simp at h
  | sum v before x after h h1 h2 h3 =>
    rw [hl] at h
    simp only [Option.some.injEq, Layout.sum.injEq] at h
    subst h
    exact .inr ⟨before, x, after, h1, h2, h3⟩

/-- A layout that rejects the value leaves no trace. -/
theorem rejects_run {n : Nat} {v : Value} {g : Option IRes} {ref : Term} {ins : List IRes} {l : Layout Term}
    (hl : c.reg ref = some l) (ht : l.Tree c.reg c.xsd) (h : l.rejects v = true) (s : DeState) :
    ∃ e, dehydrateWith c (n + 1) v g ref ins s = (.err e, s) := by
  conv => enter [1, e]; lhs; unfold dehydrateWith
  rw [hl]
  simp only
  split
  · exact ⟨_, rfl⟩
  · cases l with
    | never => exact ⟨_, rfl⟩
    | always => simp [Layout.rejects] at h
    | sum l => simp [Layout.rejects] at h
    | unit l =>
      simp only [Layout.rejects, ne_eq, decide_not, Bool.not_eq_true', decide_eq_false_iff_not] at h
      exact ⟨.incompatibleLayout, by simp only [layout, if_neg h]; rfl⟩
    | product l =>
      simp only [layout]
      split
      · rename_i m
        cases m with
        | nil => simp [Layout.rejects] at h
        | cons e m =>
          obtain ⟨key, w⟩ := e
          simp only [Layout.rejects, Bool.and_eq_true, List.isEmpty_iff, decide_eq_true_eq] at h
          have hlk : lookup key l.fields = none := by
            cases hlk : lookup key l.fields with
            | none => rfl
            | some f => exact absurd rfl (h.2 _ (mem_of_lookup hlk))
          rw [ht.intro, h.1]
          rw [intro_emit (by simp [PatsBelow, patsVars])]
          refine ⟨.incompatibleLayout, ?_⟩
          unfold entries
          rw [hlk]
          rfl
      · exact ⟨.incompatibleLayout, rfl⟩
    | _ =>
      simp only [layout]
      split
      · simp [Layout.rejects] at h
      · exact ⟨_, rfl⟩

theorem sorted_list {vs : List Value} (h : (Value.list vs).Sorted) : ∀ v ∈ vs, v.Sorted := by
  cases h with
  | list _ h => exact h

theorem sorted_map {m : List (Value × Value)} (h : (Value.map m).Sorted) : SortedKeys m ∧ ∀ e ∈ m, e.2.Sorted := by
  cases h with
  | map _ h1 h2 => exact ⟨h1, h2⟩

theorem setSpec_run (hT : TreeSet c S) (n : Nat)
    (hP : RunSpec c F S (dehydrateWith c n) (nodeIds c.reg n) fun N => Rep c F N n) :
    SetSpec (0 < n + 1) c F S (dehydrateWith c (n + 1)) (nodeIds c.reg (n + 1)) fun N => Rep c F N n := by
  intro ref l p r v s s' hS hl hset hne hso hrun hr hb hk hfr
  replace hrun := run_layout hl hrun
  simp only [layout] at hrun
  split at hrun
  · rename_i vs
    obtain ⟨h1, h2, h3, h4⟩ := hset
    rw [h2, h3] at hrun
    rw [intro_emit (by simp [PatsBelow, patsVars])] at hrun
    obtain ⟨ns, xs, g1, g2, g3, g4, g5, g6, g6', g7, g8, g9⟩ := items_run hP (fun N N' ref r v h => Rep.mono h n) (recOk c n)
      (isEnv_root r s.fresh) h4 (hT.step ref _ _ hS hl (by simp [Layout.formats])) vs s s' hrun hr hb hk
      (noEmpty_unordered hl hne) (sorted_list hso) hfr
    exact ⟨Nat.succ_pos _, ns, xs, vs, rfl, g1, by rw [g2]; simp [nodeIds, hl], g3, g4, g5, g6, g6', g7, g8, g9⟩
  · simp [DeM.fail] at hrun

theorem forall₂_zip {α β γ : Type _} {R : α × β → γ → Prop} {is : List α} {xs : List β} {vs : List γ}
    (h : List.Forall₂ R (is.zip xs) vs) (hl : xs.length = is.length) :
    List.Forall₂ (fun i v => ∃ x, (i, x) ∈ is.zip xs ∧ R (i, x) v) is vs := by
  induction is generalizing xs vs with
  | nil => cases h; exact .nil
  | cons i is ih =>
    cases xs with
    | nil => simp at hl
    | cons x xs =>
      rw [List.zip_cons_cons] at h ⊢
      cases h with
      | cons h1 h2 =>
        refine .cons ⟨x, by simp, h1⟩ ((ih h2 (by simpa using hl)).imp ?_)
        rintro i v ⟨x', h3, h4⟩
        exact ⟨x', List.mem_cons_of_mem _ h3, h4⟩

theorem isId_of_ownId {reg : Registry Term} {f : Field Term} {v : Value} {i : String}
    (h : (∃ p, f.Uses reg p) ∨ f.IsId reg) (ho : ownId reg f v = some i) : f.IsId reg := by
  unfold ownId at ho
  split at ho
  · rename_i l' t hl'
    split at ho
    · rename_i hi
      rcases h with ⟨p, h | ⟨h, l, hl, -⟩⟩ | h
      · have := h.1; omega
      · rw [hl] at hl'; simp at hl'
      · exact h
    · simp at ho
  · simp at ho

/-- Dehydration writes a representation of the tree. -/
theorem rep_run (hT : TreeSet c S) (hsort : c.reg.Sorted) (n : Nat) :
    RunSpec c F S (dehydrateWith c n) (nodeIds c.reg n) fun N => Rep c F N n := by
  induction n using Nat.strongRecOn with
  | _ n ih' =>
  cases n with
  | zero => intro ref r v s s' _ _ _ _ hrun; simp [dehydrateWith] at hrun
  | succ n =>
    have ih := ih' n (Nat.lt_succ_self n)
    intro ref r v s s' E hS hne hso hrun hr hb hkt hq hE ht hfr hfh
    obtain ⟨l, hl, htree⟩ := hT.tree ref hS
    replace hrun := run_layout hl hrun
    have hleaf : ∀ x, s'.out = s.out → (∀ e, e ∈ s'.terms ↔ e ∈ s.terms ∨ e = (r, x)) → (r, x) ∈ F.terms :=
      fun x _ h => hfr.terms _ ((h _).2 (.inr rfl))
    have hone : ∀ x, (∀ e, e ∈ s'.terms ↔ e ∈ s.terms ∨ e = (r, x)) → Own F r [] := by
      intro x h
      refine ⟨.inl rfl, ?_⟩
      have key : ∀ t, (r, t) ∈ F.terms → t = x := by
        intro t ht'
        rcases (h _).1 (hfh.terms t ht') with h' | h'
        · exact absurd h' (ht t)
        · simpa using h'
      exact fun t t' h1 h2 => (key t h1).trans (key t' h2).symm
    have hkt' : ∀ x, (∀ e, e ∈ s'.terms ↔ e ∈ s.terms ∨ e = (r, x)) → NoTerms s' := by
      intro x h e he t
      rcases (h _).1 he with h' | rfl
      · exact hkt e h' t
      · exact hr.1 t
    cases l with
    | unit l =>
      obtain ⟨h1, h2⟩ := htree
      simp only [layout] at hrun
      split at hrun
      · rename_i hv
        rw [h1] at hrun
        rw [intro_bind, instDataset_eq (by rw [length_flat_child]; exact const_below h2 0)] at hrun
        simp only [Prod.mk.injEq, true_and] at hrun
        change emit [r] l.dataset s = s' at hrun
        subst hrun
        refine ⟨[(r, none)], [], own_of_none fun t ht' => ht t (hfh.terms t ht'), .nil _, ?_, ?_, ⟨_, hl, ?_, hv, ?_⟩, hkt, ?_,
          .inl (in_self r _)⟩
        · simp [nodeIds, hl, idsOf]
        · intro q hq'
          rcases mem_const h2 hq' with h | h
          · exact .inl h
          · exact .inr (by rw [h.1]; simp [In])
        · simp [In]
        rotate_left
        · intro q hq' _
          rcases mem_const h2 hq' with h | ⟨-, x, hx, rfl, -⟩
          · exact .inl h
          · exact .inr (written_const hl h2 hx)
        · exact fun q hq' => hfr.quads _ (mem_emit.2 (.inr ⟨q, hq', rfl⟩))
      · simp [DeM.fail] at hrun
    | boolean l =>
      obtain ⟨h1, h2⟩ := htree
      simp only [layout] at hrun
      split at hrun
      · rename_i b
        obtain ⟨x, h3, h4, h5, h6⟩ := data_run h1 hrun
        rw [h2] at h3
        have h3 : Out.ok (ε := DeError) (⟨c.xsd.printBoolean b, .any c.xsd.boolean⟩ : RdfLit) = .ok x := by
          rw [← h3]; simp [booleanLit, irisOf]
        simp only [Out.ok.injEq] at h3
        subst h3
        exact ⟨[], [], hone _ h6, .nil' h5, by simp [nodeIds, hl, idsOf], fun q hq' => .inl (h4 ▸ hq'),
          ⟨_, hl, b, rfl, hleaf _ h4 h6⟩, hkt' _ h6, fun q hq' _ => .inl (h4 ▸ hq'),
          .inr (.inl ⟨_, _, hleaf _ h4 h6, .data hl (congrArg some h2)⟩)⟩
      · simp [DeM.fail] at hrun
    | number l =>
      obtain ⟨h1, i, h2, hdec⟩ := htree
      simp only [layout] at hrun
      split at hrun
      · rename_i q
        obtain ⟨x, h3, h4, h5, h6⟩ := data_run h1 hrun
        rw [h2] at h3
        simp only [numberLit, irisOf, List.singleton_append, List.find?_cons, hdec] at h3
        cases hp : c.xsd.printDecimal q with
        | none => rw [hp] at h3; simp at h3
        | some text =>
          rw [hp] at h3
          simp only [Out.ok.injEq] at h3
          subst h3
          exact ⟨[], [], hone _ h6, .nil' h5, by simp [nodeIds, hl, idsOf], fun q hq' => .inl (h4 ▸ hq'),
            ⟨_, hl, q, text, i, h2, hdec, hp, rfl, hleaf _ h4 h6⟩, hkt' _ h6, fun q hq' _ => .inl (h4 ▸ hq'),
            .inr (.inl ⟨_, _, hleaf _ h4 h6, .data hl (congrArg some h2)⟩)⟩
      · simp [DeM.fail] at hrun
    | textString l =>
      obtain ⟨h1, i, h2⟩ := htree
      simp only [layout] at hrun
      split at hrun
      · rename_i t
        obtain ⟨x, h3, h4, h5, h6⟩ := data_run h1 hrun
        rw [h2] at h3
        have h3 : Out.ok (ε := DeError) (⟨t, .any i⟩ : RdfLit) = .ok x := by
          rw [← h3]; simp [textLit, irisOf]
        simp only [Out.ok.injEq] at h3
        subst h3
        exact ⟨[], [], hone _ h6, .nil' h5, by simp [nodeIds, hl, idsOf], fun q hq' => .inl (h4 ▸ hq'),
          ⟨_, hl, t, i, h2, rfl, hleaf _ h4 h6⟩, hkt' _ h6, fun q hq' _ => .inl (h4 ▸ hq'),
          .inr (.inl ⟨_, _, hleaf _ h4 h6, .data hl (congrArg some h2)⟩)⟩
      · simp [DeM.fail] at hrun
    | id l =>
      obtain ⟨h1, h2, h3⟩ := htree
      simp only [layout] at hrun
      split at hrun
      · rename_i t
        obtain ⟨h4, h5, h6⟩ := ident_run h1 h2 h3 hrun
        exact ⟨[], [], hone _ h6, .nil' h5, by simp [nodeIds, hl, idsOf], fun q hq' => .inl (h4 ▸ hq'),
          ⟨_, hl, t, rfl, hleaf _ h4 h6⟩, hkt' _ h6, fun q hq' _ => .inl (h4 ▸ hq'), .inr (.inr ⟨l, hl⟩)⟩
      · simp [DeM.fail] at hrun
    | product l =>
      simp only [layout] at hrun
      split at hrun
      · rename_i m
        have hfk : (l.fields.map Prod.fst).Nodup := SortedKeys.nodup (hsort ref l hl)
        have hmk : (m.map Prod.fst).Nodup := SortedKeys.nodup (sorted_map hso).1
        rw [htree.intro] at hrun
        rw [intro_emit (const_below htree.const 0), DeM.bind_eq_ok] at hrun
        obtain ⟨a, s2, hrun, hkeys⟩ := hrun
        obtain rfl := requireKeys_state hkeys
        have hreq := conf_requireKeys hkeys
        change entries _ _ _ _ _ (emit [r] l.dataset s) = _ at hrun
        have hset : SetSpec (0 < n) c F S (dehydrateWith c n) (nodeIds c.reg n) fun N => Rep c F N (n - 1) := by
          cases n with
          | zero => intro ref l p r v s s' _ _ _ _ _ hrun; simp [dehydrateWith] at hrun
          | succ k => exact setSpec_run hT k (ih' k (by omega))
        obtain ⟨ns, g, k1, k2, k3, k4, k5, k5', k6, k7, k8⟩ := entries_run ih hset (idSpec_run hT n)
          (fun N N' ref r v h => Rep.mono h n) (fun N N' ref r v h => Rep.mono h (n - 1)) (recOk c n)
          (isEnv_root r s.fresh) htree.fields
          (fun e he => hT.step ref _ _ hS hl (by simp only [Layout.formats, List.mem_map]; exact ⟨e, he, rfl⟩)) m hmk _ s' hrun
          hr (bounded_const htree.const hr hb) hkt (noEmpty_product hl hne) (sorted_map hso).2 hfr
        have hext : ∀ q ∈ (emit [r] l.dataset s).out, q ∈ s'.out := by
          have := pres_entries extends_rel (fun v g ref ins s => (recOk c n).ext v g ref ins s) none
            (.child (.root [r]) (freshList s.fresh 0)) l.fields m (emit [r] l.dataset s)
          rw [hrun] at this
          exact this.quads
        -- the identifier of the record
        have hids := filterMap_one (l := m) (f := fun e => (lookup e.1 l.fields).bind fun f => ownId c.reg f e.2) (by
          have hid : ∀ e ∈ m, ∀ i, ((lookup e.1 l.fields).bind fun f => ownId c.reg f e.2) = some i →
              ∃ f, (e.1, f) ∈ l.fields ∧ f.IsId c.reg := by
            intro e _ i hi
            rw [Option.bind_eq_some_iff] at hi
            obtain ⟨f, hf, ho⟩ := hi
            refine ⟨f, mem_of_lookup hf, isId_of_ownId (htree.fields _ (mem_of_lookup hf)) ho⟩
          have hmk' : m.Pairwise fun a b => a.1 ≠ b.1 := List.pairwise_map.1 hmk
          refine hmk'.imp_of_mem ?_
          intro a b ha hb hab
          cases h1 : (lookup a.1 l.fields).bind fun f => ownId c.reg f a.2 with
          | none => exact .inl rfl
          | some i =>
            cases h2 : (lookup b.1 l.fields).bind fun f => ownId c.reg f b.2 with
            | none => exact .inr rfl
            | some j =>
              obtain ⟨f1, hf1, hi1⟩ := hid a ha i h1
              obtain ⟨f2, hf2, hi2⟩ := hid b hb j h2
              have := pair_eq htree.oneId hf1 hf2 (fun h => h hi1 hi2) (fun h => h hi2 hi1)
              simp only [Prod.mk.injEq] at this
              exact absurd this.1 hab)
        have hown : ∃ o, Own F r [(r, o)] ∧
            idsOf [(r, o)] = m.filterMap fun e => (lookup e.1 l.fields).bind fun f => ownId c.reg f e.2 := by
          rcases hids with h | ⟨e, i, he, hi, h⟩
          · refine ⟨none, own_of_none fun t ht' => ?_, by rw [h]; rfl⟩
            rcases k7 t (hfh.terms t ht') with h' | ⟨k, v, f, i, hm, hf, hid, rfl, rfl⟩
            · exact ht t h'
            · rw [List.filterMap_eq_nil_iff] at h
              have := h _ hm
              obtain ⟨hs, l', hl'⟩ := hid
              simp [hf, ownId, hl', hs.1] at this
          · refine ⟨some i, ⟨.inr ⟨some i, rfl, ?_, by simp⟩, ?_⟩, by rw [h]; rfl⟩
            rotate_left
            · have key : ∀ t, (r, t) ∈ F.terms → t = .iri i := by
                intro t ht'
                rcases k7 t (hfh.terms t ht') with h' | ⟨k, v, f, j, hm, hf, hid, rfl, rfl⟩
                · exact absurd h' (ht t)
                · have : j ∈ m.filterMap fun e => (lookup e.1 l.fields).bind fun f => ownId c.reg f e.2 := by
                    refine List.mem_filterMap.2 ⟨_, hm, ?_⟩
                    obtain ⟨hs, l', hl'⟩ := hid
                    simp [hf, ownId, hl', hs.1]
                  rw [h] at this
                  simp only [List.mem_singleton] at this
                  rw [this]
              exact fun t t' h1 h2 => (key t h1).trans (key t' h2).symm
            simp only [Option.some.injEq]
            rintro j rfl
            rw [Option.bind_eq_some_iff] at hi
            obtain ⟨f, hf, ho⟩ := hi
            obtain ⟨hs, l', hl'⟩ := isId_of_ownId (htree.fields _ (mem_of_lookup hf)) ho
            obtain ⟨-, t, hv, htm⟩ := (k4 e.1 e.2 f he hf).id l' hs hl'
            rw [hv] at ho
            have ho' : f.intro = 0 ∧ t = i := by simpa [ownId, hl', hs.1] using ho
            rwa [ho'.2] at htm
        obtain ⟨o, hown, hids⟩ := hown
        have hmono : ∀ a, In ns a → In ([(r, o)] ++ ns) a := fun a ha => in_append.2 (.inr ha)
        have hNr : In ([(r, o)] ++ ns) r := in_append.2 (.inl (by simp [In]))
        -- the quads of a property
        have hquads : ∀ k f p, (k, f) ∈ l.fields → f.Uses c.reg p → ∀ q ∈ F.out, q.s = r → q.p = .term p →
            ∃ v x, (k, v) ∈ m ∧ x ∈ g k ∧ q = lk r p x := by
          intro k f p hf hu q hq' e ep
          have hno : ¬ Extra E r q := by
            intro h
            obtain ⟨o', ho'⟩ := extra_prop h ep
            exact hE _ _ ho' (.link hl ⟨_, hf, hu⟩)
          rcases k6 q ((hfh.quads q hq' e).resolve_right hno) e with h | ⟨k', v, f', p', x, hm, hf', hu', hx, rfl⟩
          · rcases mem_const htree.const h with h | ⟨-, y, hy, -, hp2⟩
            · exact absurd (hq q h e) hno
            · exact absurd (hp2 p ep) (htree.other _ hf p hu y hy)
          · simp only [lk, IRes.term.injEq] at ep
            subst ep
            have := pair_eq htree.distinct hf (mem_of_lookup hf') (fun h => h _ hu hu') (fun h => h _ hu' hu)
            simp only [Prod.mk.injEq] at this
            rw [← this.1] at hm hx
            exact ⟨v, x, hm, hx, rfl⟩
        refine ⟨[(r, o)], ns, hown, k1, ?_, ?_, ⟨_, hl, m, rfl, hNr, ?_, ?_, hreq, ?_, ?_⟩, k5', ?_, .inl (in_self r o)⟩
        · rw [idsOf_append, k2, hids]; simp only [nodeIds, hl]; rfl
        · intro q hq'
          rcases k3 q hq' with h | h | h
          · rcases mem_const htree.const h with h | h
            · exact .inl h
            · exact .inr (by rw [h.1]; exact hNr)
          · exact .inr (by rw [h]; exact hNr)
          · exact .inr (hmono _ h)
        · exact fun q hq' => hfr.quads _ (hext _ (mem_emit.2 (.inr ⟨q, hq', rfl⟩)))
        · intro k v hm
          obtain ⟨f, hf⟩ := k8 k v hm
          exact ⟨f, mem_of_lookup hf⟩
        · intro k v f hm hf
          have hent := k4 k v f hm (lookup_eq hfk hf)
          constructor
          · intro p hp
            obtain ⟨x, hx, hrep, hlk⟩ := hent.link p hp
            refine ⟨x, ⟨hlk, fun q hq' e ep => ?_⟩, Rep.mono hmono n hrep⟩
            obtain ⟨w, y, hw, hy, rfl⟩ := hquads k f p hf (.inl hp) q hq' e ep
            rw [hx] at hy
            simp only [List.mem_singleton] at hy
            rw [hy]
          · intro hs
            rcases htree.fields _ hf with ⟨p, hu | ⟨-, l', hl', hset'⟩⟩ | ⟨-, l', hl'⟩
            · exact absurd hs (Field.IsLink.not_onSelf hu)
            · obtain ⟨hpos, vs, rfl, hall, hlk⟩ := hent.set l' p hs hl' hset'
              obtain ⟨n, rfl⟩ : ∃ k, n = k + 1 := ⟨n - 1, by omega⟩
              refine ⟨_, hl', vs, rfl, hNr, fun p' hp' => ?_⟩
              rw [IsSet.unique hp' hset']
              refine ⟨g k, hall.imp fun _ _ => Rep.mono hmono n, hlk, fun q hq' e ep => ?_⟩
              obtain ⟨w, y, hw, hy, rfl⟩ := hquads k f p hf (.inr ⟨hs, l', hl', hset'⟩) q hq' e ep
              exact ⟨y, hy, rfl⟩
            · obtain ⟨hpos, t, rfl, htm⟩ := hent.id l' hs hl'
              obtain ⟨n, rfl⟩ : ∃ k, n = k + 1 := ⟨n - 1, by omega⟩
              exact ⟨_, hl', t, rfl, htm⟩
        · intro k f p hf hno hp q hq' e ep
          obtain ⟨w, y, hw, -, -⟩ := hquads k f p hf (.inl hp) q hq' e ep
          exact hno w hw
        · intro q hq' e
          rcases k6 q hq' e with h | ⟨k, v, f, p, x, hm, hf, hu, hx, rfl⟩
          · rcases mem_const htree.const h with h | ⟨-, y, hy, rfl, -⟩
            · exact .inl h
            · exact .inr (written_const hl htree.const hy)
          · exact .inr (written_link hl ⟨_, mem_of_lookup hf, hu⟩ r x)
      · simp [DeM.fail] at hrun
    | unordered l =>
      obtain ⟨p, hset⟩ := htree
      have hrun' : dehydrateWith c (n + 1) v none ref [r] s = (.ok (), s') := by
        rw [dehydrateWith_succ hl (by simp [Layout.inputCount, hset.1])]; exact hrun
      obtain ⟨-, ns, xs, vs, rfl, g1, g2, g3, g4, g5, g6, g6', g7, g8, g9⟩ := setSpec_run hT n ih ref l p r v s s' hS hl hset
        hne hso hrun' hr hb hkt hfr
      have hmono : ∀ a, In ns a → In ([(r, none)] ++ ns) a := fun a ha => in_append.2 (.inr ha)
      refine ⟨[(r, none)], ns, own_of_none fun t ht' => ht t (g9 t (hfh.terms t ht')), g1, ?_, ?_, ⟨_, hl, vs, rfl, ?_, ?_⟩,
        g6', ?_, .inl (in_self r _)⟩
      · rw [idsOf_append, g2]; rfl
      · intro q hq'
        rcases g3 q hq' with h | h | h
        · exact .inl h
        · exact .inr (in_append.2 (.inl (by simp [In, h])))
        · exact .inr (hmono _ h)
      · exact in_append.2 (.inl (by simp [In]))
      · intro p' hp'
        rw [IsSet.unique hp' hset]
        refine ⟨xs, g4.imp fun _ _ => Rep.mono hmono n, fun x hx => hfr.quads _ (g7 x hx), fun q hq' e ep => ?_⟩
        have hno : ¬ Extra E r q := by
          intro h
          obtain ⟨o', ho'⟩ := extra_prop h ep
          exact hE _ _ ho' (.link hl hset)
        rcases g8 q ((hfh.quads q hq' e).resolve_right hno) e with h | h
        · exact absurd (hq q h e) hno
        · exact h
      · intro q hq' e
        rcases g8 q hq' e with h | ⟨x, hx, rfl⟩
        · exact .inl h
        · exact .inr (written_link hl hset r x)
    | ordered l =>
      obtain ⟨first, rest, tail, hch⟩ := htree
      obtain ⟨h1, h2, h3, h4, h5, h6, h7, h8, h9⟩ := id hch
      simp only [layout] at hrun
      split at hrun
      · rename_i vs
        rw [h2, h3] at hrun
        rw [intro_emit (by simp [PatsBelow, patsVars]), h4,
          readPattern_bind (by simp [Pattern.Below, Pattern.vars, Env.flat])] at hrun
        change nodes _ _ _ _ _ r vs s = _ at hrun
        obtain ⟨g0, g1⟩ := noEmpty_ordered hl hne
        have hlinks : ∀ p, p = first ∨ p = rest → (Layout.ordered l).Links c.reg p := fun p hp => ⟨_, _, _, hch, hp⟩
        obtain ⟨ns, k1, k2, k3, k4, k4', k4'', k5, k6⟩ := nodes_run ih (fun N N' ref r v h => Rep.mono h n) (recOk c n)
          (isEnv_root r s.fresh) hch (hT.step ref _ _ hS hl (by simp [Layout.formats])) vs r s s' g0 hrun hr hr hb hkt E
          (fun o => ⟨fun h => hE _ _ h (.link hl (hlinks _ (.inl rfl))), fun h => hE _ _ h (.link hl (hlinks _ (.inr rfl)))⟩)
          hq ht g1
          (sorted_list hso) hfr hfh
        have hmono : ∀ a, In ns a → In ([(r, none)] ++ ns) a := fun a ha => in_append.2 (.inr ha)
        refine ⟨[(r, none)], ns, own_of_none fun t ht' => ht t (k5 r t hr (hfh.terms t ht')), k1, ?_, ?_,
          ⟨_, hl, vs, rfl, g0, ?_⟩, k4', ?_, .inl (in_self r _)⟩
        · rw [idsOf_append, k2]; simp [nodeIds, hl]; rfl
        · intro q hq'
          rcases k3 q hq' with h | h | h
          · exact .inl h
          · exact .inr (in_append.2 (.inl (by simp [In, h])))
          · exact .inr (hmono _ h)
        · intro first' rest' tail' hch'
          have e1 : first' ≠ rest' := hch'.2.2.2.2.2.1
          have e2 : tail' = tail := by
            have := h5.symm.trans hch'.2.2.2.2.1
            simpa using this.symm
          have e3 := fun q => (h8 q).symm.trans (hch'.2.2.2.2.2.2.2.1 q)
          have e4 : first' = first := by
            rcases (e3 (linkPat 1 3 first')).2 (.inl rfl) with h | h
            · simpa [linkPat] using h
            · simp [linkPat] at h
          have e5 : rest' = rest := by
            rcases (e3 (linkPat 1 2 rest')).2 (.inr rfl) with h | h
            · simp [linkPat] at h
            · simpa [linkPat] using h
          rw [e2, e4, e5]
          refine k6.mono ?_ fun _ _ => Rep.mono hmono n
          rintro a (rfl | ha)
          · exact in_append.2 (.inl (by simp [In]))
          · exact hmono _ ha
        · intro q hq' e
          rcases k4'' q hq' e with h | ⟨x, rfl | rfl⟩
          · exact .inl h
          · exact .inr (written_link hl (hlinks _ (.inl rfl)) r x)
          · exact .inr (written_link hl (hlinks _ (.inr rfl)) r x)
      · simp [DeM.fail] at hrun
    | sized l =>
      obtain ⟨h1, h2, h3, h4, h5⟩ := htree
      simp only [layout] at hrun
      split at hrun
      · rename_i vs
        rw [h2] at hrun
        rw [intro_emit (const_below h3 0)] at hrun
        change sizedItems _ _ _ _ _ (emit [r] l.dataset s) = _ at hrun
        obtain ⟨ns, xs, k1, k2, k3, k4, k5, k6, k6', k7, k8, k9⟩ := sizedItems_run ih (fun N N' ref r v h => Rep.mono h n)
          (recOk c n) (isEnv_root r s.fresh) l.items (fun i hi => (h4 i hi).imp fun p hp => hp.1)
          (fun i hi => hT.step ref _ _ hS hl (by simp only [Layout.formats, List.mem_map]; exact ⟨i, hi, rfl⟩)) vs _ s' hrun
          hr (bounded_const h3 hr hb) hkt (noEmpty_sized hl hne) (sorted_list hso) hfr
        have hmono : ∀ a, In ns a → In ([(r, none)] ++ ns) a := fun a ha => in_append.2 (.inr ha)
        have hext : ∀ q ∈ (emit [r] l.dataset s).out, q ∈ s'.out := by
          have := pres_sizedItems extends_rel (fun v g ref ins s => (recOk c n).ext v g ref ins s) none
            (.child (.root [r]) (freshList s.fresh 0)) vs l.items (emit [r] l.dataset s)
          rw [hrun] at this
          exact this.quads
        refine ⟨[(r, none)], ns, own_of_none fun t ht' => ht t (k9 t (hfh.terms t ht')), k1, ?_, ?_,
          ⟨_, hl, vs, rfl, ?_, ?_, ?_⟩, k6', ?_, .inl (in_self r _)⟩
        · rw [idsOf_append, k2]; simp [nodeIds, hl]; rfl
        · intro q hq'
          rcases k3 q hq' with h | h | h
          · rcases mem_const h3 h with h | h
            · exact .inl h
            · exact .inr (in_append.2 (.inl (by simp [In, h.1])))
          · exact .inr (in_append.2 (.inl (by simp [In, h])))
          · exact .inr (hmono _ h)
        · exact in_append.2 (.inl (by simp [In]))
        · exact fun q hq' => hfr.quads _ (hext _ (mem_emit.2 (.inr ⟨q, hq', rfl⟩)))
        · have hmem : ∀ e ∈ l.items.zip xs, e.1 ∈ l.items := fun e he => (List.of_mem_zip he).1
          have hpw : (l.items.zip xs).Pairwise fun a b => ∀ p, a.1.IsLink p → ¬ b.1.IsLink p := by
            have := List.pairwise_map (f := Prod.fst) (l := l.items.zip xs)
              (R := fun (a b : ItemLayout Term) => ∀ p, a.IsLink p → ¬ b.IsLink p)
            rw [← this, List.map_fst_zip (by omega)]
            exact h5
          refine (forall₂_zip k4 k5).imp ?_
          rintro i w ⟨x, hx, hrep⟩ p hp
          refine ⟨x, ⟨hfr.quads _ (k7 _ hx p hp), ?_⟩, Rep.mono hmono n hrep⟩
          intro q hq' e ep
          have hno : ¬ Extra E r q := by
            intro h
            obtain ⟨o', ho'⟩ := extra_prop h ep
            exact hE _ _ ho' (.link hl ⟨i, hmem _ hx, hp⟩)
          rcases k8 q ((hfh.quads q hq' e).resolve_right hno) e with h | ⟨e', he', p', hp', rfl⟩
          · rcases mem_const h3 h with h | ⟨-, y, hy, -, hp2⟩
            · exact absurd (hq q h e) hno
            · obtain ⟨p3, hp3, hp4⟩ := h4 i (hmem _ hx)
              have : p3 = p := by
                have := hp3.2.1.symm.trans hp.2.1
                simpa [linkPat] using this
              exact absurd (hp2 p ep) (this ▸ hp4 y hy)
          · simp only [lk, IRes.term.injEq] at ep
            subst ep
            have := pair_eq hpw hx he' (fun h => h _ hp hp') (fun h => h _ hp' hp)
            rw [← this]
        · intro q hq' e
          rcases k8 q hq' e with h | ⟨e', he', p', hp', rfl⟩
          · rcases mem_const h3 h with h | ⟨-, y, hy, rfl, -⟩
            · exact .inl h
            · exact .inr (written_const hl h3 hy)
          · exact .inr (written_link hl ⟨e'.1, (List.of_mem_zip he').1, hp'⟩ r e'.2)
      · simp [DeM.fail] at hrun
    | sum l =>
      simp only [layout] at hrun
      rw [htree.intro] at hrun
      rw [intro_emit (const_below htree.const 0)] at hrun
      change variants _ _ _ _ _ _ (emit [r] l.dataset s) = _ at hrun
      have hclosed : ∀ x ∈ l.variants, PatsBelow (1 + x.intro) x.dataset ∧ x.value.Below (1 + x.intro) := by
        intro x hx
        obtain ⟨h1, h2, h3, h4⟩ := htree.variants x hx
        rw [h1]
        refine ⟨const_below h2 0, ?_, ?_⟩
        · rw [h3]; simp [Pattern.Below, Pattern.vars]
        · rw [h4]; simp
      have hS' : ∀ x ∈ l.variants, S x.value.layout := fun x hx => hT.step ref _ x.value hS hl (by
        simp only [Layout.formats, List.mem_map]; exact ⟨x, hx, rfl⟩)
      rcases recoverable_sum hl hne with hnil | ⟨before, x, after, hv, hrej, hrec⟩
      · rw [hnil] at hrun
        simp [variants, DeM.fail] at hrun
      have hx : x ∈ l.variants := by rw [hv]; simp
      have hy : ∀ y ∈ before ++ after, y ∈ l.variants := by
        intro y hy
        rw [hv]
        rcases List.mem_append.1 hy with h | h <;> simp [h]
      -- the depth is enough
      obtain ⟨n, rfl⟩ : ∃ k, n = k + 1 := by
        cases n with
        | succ k => exact ⟨k, rfl⟩
        | zero =>
          exfalso
          cases hvs : l.variants with
          | nil => rw [hvs] at hx; simp at hx
          | cons y ys =>
            rw [hvs] at hrun
            have := hclosed y (by rw [hvs]; simp)
            rw [variants_cons (by exact this.1) (by exact this.2)] at hrun
            simp [call, dehydrateWith] at hrun
      have hskip : ∀ ys, ys ⊆ before ++ after → ∀ y ∈ ys, ∀ ρ s1, ∃ e,
          call (dehydrateWith c (n + 1)) none y.value ρ v s1 = (.err e, s1) := by
        intro ys hys y hy' ρ s1
        obtain ⟨l', hl', hm⟩ := hrej y (hys hy')
        obtain ⟨l2, hl2, ht2⟩ := hT.tree _ (hS' y (hy y (hys hy')))
        rw [hl'] at hl2
        obtain rfl := Option.some.inj hl2
        exact rejects_run hl' ht2 hm s1
      have hzero : ∀ ys, ys ⊆ before ++ after → (ys.map Variant.intro).sum = 0 := by
        intro ys hys
        induction ys with
        | nil => rfl
        | cons y ys ihy =>
          rw [List.cons_subset] at hys
          rw [List.map_cons, List.sum_cons, (htree.variants y (hy y hys.1)).1, ihy hys.2]
      have hskip0 : ∀ ys, ys ⊆ before ++ after → ∀ zs sel s1,
          variants (dehydrateWith c (n + 1)) none (.child (.root [r]) (freshList s.fresh 0)) v (ys ++ zs) sel s1 =
            variants (dehydrateWith c (n + 1)) none (.child (.root [r]) (freshList s.fresh 0)) v zs sel s1 := by
        intro ys hys zs sel s1
        rw [variants_skip (env := .child (.root [r]) (freshList s.fresh 0)) (fun y hy' => hclosed y (hy y (hys hy'))) (hskip ys hys), hzero ys hys]
        rfl
      rw [hv, hskip0 before (by simp), variants_cons (by exact (hclosed x hx).1) (by exact (hclosed x hx).2)] at hrun
      obtain ⟨hx1, hx2, hx3⟩ := htree.variants x hx
      rw [hx1] at hrun
      have hcall : ∀ s1, call (dehydrateWith c (n + 1)) none x.value (scope [r] 0 s1) v =
          dehydrateWith c (n + 1) v none x.value.layout [r] := fun s1 => call_self hx3 s1 v
      change (match call _ _ x.value (scope [r] 0 (emit [r] l.dataset s)) v (emit [r] l.dataset s) with
        | (.ok _, s') => _ | (.err _, s') => _ | (.panic, s') => _ | (.fuel, s') => _) = _ at hrun
      rw [hcall] at hrun
      rcases hc : dehydrateWith c (n + 1) v none x.value.layout [r] (emit [r] l.dataset s) with ⟨a | e | _ | _, s2⟩ <;>
        rw [hc] at hrun <;> simp only at hrun
      rotate_left
      · rw [← List.append_nil after, hskip0 after (by simp)] at hrun
        simp [variants, DeM.fail] at hrun
      · simp at hrun
      · simp at hrun
      rw [← List.append_nil after, hskip0 after (by simp)] at hrun
      simp only [variants, DeM.modify, Prod.mk.injEq, true_and] at hrun
      change emit [r] x.dataset s2 = s' at hrun
      subst hrun
      -- what the variant writes
      have hcd : ConstPats (l.dataset ++ x.dataset) := by
        intro q hq'
        rcases List.mem_append.1 hq' with h | h
        · exact htree.const q h
        · exact hx2 q h
      have hext : Extends (emit [r] l.dataset s) s2 := by
        have := (recOk c (n + 1)).ext v none x.value.layout [r] (emit [r] l.dataset s)
        rwa [hc] at this
      have hE' : ∀ p o, (E p o ∨ ⟨.var 0, .res p, .res o, none⟩ ∈ l.dataset ++ x.dataset) → ¬ LayoutReads c.reg p x.value.layout := by
        rintro p o (h | h) hr'
        · exact hE p o h (.sum hl hx hr')
        · exact htree.other x hx _ h p rfl hr'
      have hfr2 : Fr F (emit [r] l.dataset s).fresh s2 := by
        refine ⟨fun q h => hfr.quads q (mem_emit.2 (.inl h)), hfr.terms, fun q hq' i e h1 h2 => ?_, hfr.backT⟩
        rcases mem_const hx2 (hfr.backQ q hq' i e h1 h2) with h | h
        · exact h
        · have := hr.2 i (h.1.symm.trans e)
          change s.fresh ≤ i at h1
          omega
      have hconst : ∀ ds, ConstPats ds → ds ⊆ l.dataset ++ x.dataset → ∀ y ∈ ds,
          Extra (fun p o => E p o ∨ ⟨.var 0, .res p, .res o, none⟩ ∈ l.dataset ++ x.dataset) r (quadInst [r] y) := by
        intro ds hds hsub y hy'
        obtain ⟨p, o, h1, -, h2⟩ := const_eq (r := r) hds hy'
        exact ⟨p, o, .inr (hsub h1), h2⟩
      have hmono : ∀ q, Extra E r q →
          Extra (fun p o => E p o ∨ ⟨.var 0, .res p, .res o, none⟩ ∈ l.dataset ++ x.dataset) r q := by
        rintro q ⟨p, o, h1, h2⟩
        exact ⟨p, o, .inl h1, h2⟩
      have hs1 : ∀ q ∈ (emit [r] l.dataset s).out, q.s = r →
          Extra (fun p o => E p o ∨ ⟨.var 0, .res p, .res o, none⟩ ∈ l.dataset ++ x.dataset) r q := by
        intro q hq' e
        rcases mem_const htree.const hq' with h | ⟨-, y, hy', rfl, -⟩
        · exact hmono q (hq q h e)
        · exact hconst _ htree.const (by simp) y hy'
      have hfh2 : FrR F (fun p o => E p o ∨ ⟨.var 0, .res p, .res o, none⟩ ∈ l.dataset ++ x.dataset) r s2 := by
        refine ⟨fun q hq' e => ?_, hfh.terms⟩
        rcases hfh.quads q hq' e with h | h
        · rcases mem_const hx2 h with h | ⟨-, y, hy', rfl, -⟩
          · exact .inl h
          · exact .inr (hconst _ hx2 (by simp) y hy')
        · exact .inr (hmono q h)
      obtain ⟨own, ns, k1, k2, k3, k4, k5, k6, k7, hkind⟩ : ∃ own ns, Own F r own ∧ Nodes F (emit [r] l.dataset s).fresh s2.fresh ns ∧
          idsOf (own ++ ns) = variantId c.reg x.value.layout v ++ nodeIds c.reg (n + 1) x.value.layout v ∧
          (∀ q ∈ s2.out, q ∈ (emit [r] l.dataset s).out ∨ In (own ++ ns) q.s) ∧
          Rep c F (In (own ++ ns)) (n + 1) x.value.layout r v ∧ NoTerms s2 ∧
          (∀ q ∈ s2.out, q.s = r → q ∈ (emit [r] l.dataset s).out ∨ Written c.reg x.value.layout r q) ∧
          (In own r ∨ ∃ text i, (r, .literal ⟨text, .any i⟩) ∈ F.terms ∧ WritesLiteral c.reg (.iri i) x.value.layout) := by
        obtain ⟨own, ns, k1, k2, k3, k4, k5, k6, k7, k8⟩ := ih x.value.layout r v (emit [r] l.dataset s) s2 _ (hS' x hx) hrec hso
          hc hr (bounded_const htree.const hr hb) hkt hs1 hE' ht hfr2 hfh2
        by_cases hid : ∃ l', c.reg x.value.layout = some (.id l')
        · -- the resource is the one that is identified
          obtain ⟨l', hl'⟩ := hid
          obtain ⟨l2, hl2, hrep⟩ := id k5
          rw [hl'] at hl2
          obtain rfl := Option.some.inj hl2
          obtain ⟨t, rfl, htm⟩ := hrep
          have hids : nodeIds c.reg (n + 1) x.value.layout (.literal (.textString t)) = [] := by simp [nodeIds, hl']
          rw [hids, idsOf_append, List.append_eq_nil_iff] at k3
          have hown : own = [] := by
            rcases k1.node with h | ⟨o, h, -, h2⟩
            · exact h
            · cases o with
              | none => exact absurd htm (h2 rfl _)
              | some i => rw [h] at k3; simp [idsOf] at k3
          subst hown
          have hmono : ∀ a, In ([] ++ ns) a → In ([(r, some t)] ++ ns) a := fun a ha => in_append.2 (.inr ha)
          refine ⟨[(r, some t)], ns, ⟨.inr ⟨some t, rfl, ?_, by simp⟩, k1.single⟩, k2, ?_, fun q hq' => (k4 q hq').imp id (hmono _),
            Rep.mono hmono _ k5, k6, k7, .inl (in_self r _)⟩
          · rintro i ⟨⟩; exact htm
          · rw [hids, idsOf_append, k3.2]; simp [variantId, hl', idsOf]
        · refine ⟨own, ns, k1, k2, ?_, k4, k5, k6, k7, ?_⟩
          · rw [k3]
            have : variantId c.reg x.value.layout v = [] := by
              unfold variantId
              split
              · rename_i l' t h1; exact absurd ⟨_, h1⟩ hid
              · rfl
            rw [this, List.nil_append]
          · rcases k8 with h | h | h
            · exact .inl h
            · exact .inr h
            · exact absurd h hid
      have hnode : ∀ y ∈ l.dataset ++ x.dataset, In own r := by
        intro y hy'
        rcases hkind with h | ⟨text, i, -, h⟩
        · exact h
        · obtain ⟨h1, h2⟩ := htree.node x hx _ h
          rw [h1, h2] at hy'
          simp at hy'
      -- everything said about `r`
      have hsay : ∀ p z, lk r p z ∈ F.out → (∃ o, z = .term o ∧ E p o) ∨
          (∃ o, z = .term o ∧ ⟨.var 0, .res p, .res o, none⟩ ∈ l.dataset ++ x.dataset) ∨
          (∃ o, z = .term o ∧ LayoutWrites c.reg p o x.value.layout) ∨ ∀ o, LayoutWrites c.reg p o x.value.layout := by
        intro p z hz
        have hextra : Extra (fun p o => E p o ∨ ⟨.var 0, .res p, .res o, none⟩ ∈ l.dataset ++ x.dataset) r (lk r p z) →
            (∃ o, z = .term o ∧ E p o) ∨
            (∃ o, z = .term o ∧ ⟨.var 0, .res p, .res o, none⟩ ∈ l.dataset ++ x.dataset) := by
          rintro ⟨p', o, h1, h2⟩
          simp only [lk, Quad.mk.injEq, IRes.term.injEq, true_and, and_true] at h2
          obtain ⟨rfl, rfl⟩ := h2
          rcases h1 with h1 | h1
          · exact .inl ⟨o, rfl, h1⟩
          · exact .inr ⟨o, rfl, h1⟩
        have : Extra (fun p o => E p o ∨ ⟨.var 0, .res p, .res o, none⟩ ∈ l.dataset ++ x.dataset) r (lk r p z) ∨
            Written c.reg x.value.layout r (lk r p z) := by
          rcases hfh2.quads _ hz rfl with h | h
          · rcases k7 _ h rfl with h | h
            · exact .inl (hs1 _ h rfl)
            · exact .inr h
          · exact .inl h
        rcases this with h | ⟨p', z', h1, h2⟩
        · rcases hextra h with h | h
          · exact .inl h
          · exact .inr (.inl h)
        · simp only [lk, Quad.mk.injEq, IRes.term.injEq, true_and, and_true] at h1
          obtain ⟨rfl, rfl⟩ := h1
          exact .inr (.inr h2)
      have hlacks : ∀ y ∈ l.variants, ∀ p, LayoutReads c.reg p y.value.layout → l.Avoids c.reg x p → Lacks F (In (own ++ ns)) r p := by
        intro y hy' p hp ha
        rcases hkind with h | ⟨text, i, h, -⟩
        · refine .inl ⟨in_append.2 (.inl h), fun z hz => ?_⟩
          rcases hsay p z hz with ⟨o, -, h'⟩ | ⟨o, -, h'⟩ | ⟨o, -, h'⟩ | h'
          · exact hE p o h' (.sum hl hy' hp)
          · exact ha.1 _ h' rfl
          · exact ha.2 o h'
          · exact ha.2 p (h' p)
        · exact .inr ⟨_, h⟩
      have hsep : ∀ y ∈ before ++ after, Separate c.reg l x y := by
        intro y hy'
        have hs := htree.separate
        rw [hv, List.pairwise_append, List.pairwise_cons] at hs
        rcases List.mem_append.1 hy' with h | h
        · exact (hs.2.2 y h x (by simp)).2
        · exact (hs.2.1.1 y h).1
      refine ⟨own, ns, k1, k2, ?_, ?_, ⟨_, hl, before, x, after, hv, ?_, k5, ?_⟩, k6, ?_, ?_⟩
      · rw [k3]
        have hx' : (c.reg x.value.layout).all (·.rejects v) = false := by
          obtain ⟨l2, hl2, ht2⟩ := hT.tree _ (hS' x hx)
          rw [hl2]
          simp only [Option.all_some]
          cases hr' : l2.rejects v with
          | false => rfl
          | true =>
            obtain ⟨e, he⟩ := rejects_run (n := n) (g := none) (ins := [r]) hl2 ht2 hr' (emit [r] l.dataset s)
            rw [hc] at he
            simp at he
        have hy' : ∀ ys, ys ⊆ before ++ after → ys.flatMap (fun x =>
            if (c.reg x.value.layout).all (·.rejects v) then [] else
              variantId c.reg x.value.layout v ++ nodeIds c.reg (n + 1) x.value.layout v) = [] := by
          intro ys hys
          rw [List.flatMap_eq_nil_iff]
          intro y hy'
          obtain ⟨l', hl', hm⟩ := hrej y (hys hy')
          simp [hl', hm]
        conv => rhs; unfold nodeIds
        rw [hl]
        simp only
        rw [hv, List.flatMap_append, List.flatMap_cons, hy' before (by simp), hy' after (by simp), hx']
        simp
      · intro q hq'
        rcases mem_const hx2 hq' with h | ⟨h1, y, hy', -, -⟩
        · rcases k4 q h with h | h
          · rcases mem_const htree.const h with h | ⟨h1, y, hy', -, -⟩
            · exact .inl h
            · exact .inr (by rw [h1]; exact in_append.2 (.inl (hnode y (by simp [hy']))))
          · exact .inr h
        · exact .inr (by rw [h1]; exact in_append.2 (.inl (hnode y (by simp [hy']))))
      · intro q hq'
        rcases List.mem_append.1 hq' with h | h
        · exact hfr.quads _ (mem_emit.2 (.inl (hext.quads _ (mem_emit.2 (.inr ⟨q, h, rfl⟩)))))
        · exact hfr.quads _ (mem_emit.2 (.inr ⟨q, h, rfl⟩))
      · intro y hy'
        have hym := hy y hy'
        cases hsep y hy' with
        | triple p o l' h1 h2 h3 h4 =>
          refine .triple p o l' h1 h2 ?_
          rcases hkind with h | ⟨text, i, h, -⟩
          · refine .inl ⟨in_append.2 (.inl h), fun z hz => ?_⟩
            rcases hsay p z hz with ⟨o', -, h'⟩ | ⟨o', rfl, h'⟩ | ⟨o', rfl, h'⟩ | h'
            · exfalso
              rcases List.mem_append.1 h2 with h2 | h2
              · exact hE p o' h' (.variant hl hym h2 rfl)
              · exact hE p o' h' (.statement hl hym h1 h2 rfl)
            · exact ⟨o', rfl, fun e => h3 (e ▸ h')⟩
            · exact ⟨o', rfl, fun e => h4 (e ▸ h')⟩
            · exact absurd (h' o) h4
          · exact .inr ⟨_, h⟩
        | literal l' d h1 h2 h3 =>
          refine .literal l' d h1 h2 ?_
          rcases hkind with h | ⟨text, i, h, h'⟩
          · exact .inl (in_append.2 (.inl h))
          · exact .inr ⟨text, i, h, fun e => h3 (e ▸ h')⟩
        | record l' h1 h2 h3 =>
          refine .record l' h1 (fun e he => ?_) h3
          obtain ⟨p, hp, ha⟩ := h2 e he
          exact ⟨p, hp, hlacks y hym p (.link h1 ⟨e, he, .inl hp⟩) ha⟩
        | sized l' i is p h1 h2 h3 h4 =>
          exact .sized l' i is p h1 h2 h3 (hlacks y hym p (.link h1 ⟨i, by rw [h2]; simp, h3⟩) h4)
        | list l' l'' h1 h2 h3 =>
          obtain ⟨l3, hl3, hrep⟩ := k5
          rw [h2] at hl3
          obtain rfl := Option.some.inj hl3
          cases l'' with
          | boolean l2 => obtain ⟨b, -, h⟩ := hrep; exact .list l' _ h1 h
          | number l2 => obtain ⟨q, text, i, -, -, -, -, h⟩ := hrep; exact .list l' _ h1 h
          | textString l2 => obtain ⟨t, i, -, -, h⟩ := hrep; exact .list l' _ h1 h
          | _ => simp [Layout.literalType] at h3
      · intro q hq' e
        rcases mem_const hx2 hq' with h | ⟨-, y, hy', rfl, -⟩
        · rcases k7 q h e with h | ⟨p, z, h1, h2⟩
          · rcases mem_const htree.const h with h | ⟨-, y, hy', rfl, -⟩
            · exact .inl h
            · exact .inr (written_const hl htree.const hy')
          · refine .inr ⟨p, z, h1, ?_⟩
            rcases h2 with ⟨o, h2, h3⟩ | h2
            · exact .inl ⟨o, h2, .sum hl hx h3⟩
            · exact .inr fun o => .sum hl hx (h2 o)
        · obtain ⟨p, o, h1, -, h2⟩ := const_eq (r := r) hx2 hy'
          exact .inr ⟨p, .term o, h2, .inl ⟨o, rfl, .variant hl hx h1⟩⟩
      · rcases hkind with h | ⟨text, i, h, h'⟩
        · exact .inl h
        · exact .inr (.inl ⟨text, i, h, .sum hl hx h'⟩)
    | _ => exact absurd htree (by simp [Layout.Tree])

end Verif.RoundTrip
