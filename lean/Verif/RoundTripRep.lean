import Verif.RoundTripSpec
import Verif.DehydrateFresh
import Verif.DehydrateClosed
import Verif.DehydrateConform

/-!
# How a tree is represented by a dehydration state

`Rep`: in the final state `F`, the resource `r` and what is linked to it represent the value `v`. It says which quads
have `r` as subject, and no others. `N` is a set that contains every resource standing for a node of the tree.
-/

set_option linter.unusedSectionVars false
set_option linter.unusedSimpArgs false

namespace Verif.RoundTrip

open Dehydrate

/-- The quad `s p o` in the default graph. -/
def lk (s : IRes) (p : Term) (o : IRes) : Quad IRes := ⟨s, .term p, o, none⟩

/-- The only quad with subject `r` and property `p` is the one with object `x`. -/
def Only (F : DeState) (r : IRes) (p : Term) (x : IRes) : Prop :=
  lk r p x ∈ F.out ∧ ∀ q ∈ F.out, q.s = r → q.p = .term p → q = lk r p x

/-- The nodes of a list. -/
def ChainRep (F : DeState) (N : IRes → Prop) (M : IRes → Value → Prop) (first rest : Term) (tail : String) :
    IRes → List Value → Prop
  | h, [] => h = .term (.iri tail)
  | h, v :: vs => N h ∧ (∀ t, (h, t) ∉ F.terms) ∧ (∀ t, h ≠ .term t) ∧ ∃ x next, Only F h first x ∧ Only F h rest next ∧
      M x v ∧ ChainRep F N M first rest tail next vs

/-- The field `f` of the record `r` has the value `v`. -/
structure FieldRep (c : DeCtx) (F : DeState) (M : Term → IRes → Value → Prop) (r : IRes) (f : Field Term) (v : Value) :
    Prop where
  link : ∀ p, f.IsLink p → ∃ x, Only F r p x ∧ M f.value.layout x v
  self : f.OnSelf → M f.value.layout r v

/-- Nothing says that `r` has the value `o` for the property `p`. -/
def Absent (F : DeState) (N : IRes → Prop) (r : IRes) (p o : Term) : Prop :=
  (N r ∧ ∀ z, lk r p z ∈ F.out → ∃ t, z = .term t ∧ t ≠ o) ∨ ∃ lit, (r, .literal lit) ∈ F.terms

/-- Nothing is said about `r` with the property `p`. -/
def Lacks (F : DeState) (N : IRes → Prop) (r : IRes) (p : Term) : Prop :=
  (N r ∧ ∀ z, lk r p z ∉ F.out) ∨ ∃ lit, (r, .literal lit) ∈ F.terms

/-- What is said about `r` cannot be read with the variant `y`. -/
inductive Skip (reg : Registry Term) (F : DeState) (N : IRes → Prop) (r : IRes) (y : Variant Term) : Prop
  | triple (p o : Term) (l' : Layout Term) : reg y.value.layout = some l' →
      ⟨.var 0, .res p, .res o, none⟩ ∈ y.dataset ++ l'.statements → Absent F N r p o → Skip reg F N r y
  | literal (l' : Layout Term) (d : Term) : reg y.value.layout = some l' → l'.literalType = some d →
      (N r ∨ ∃ text i, (r, .literal ⟨text, .any i⟩) ∈ F.terms ∧ d ≠ .iri i) → Skip reg F N r y
  | record (l' : ProductLayout Term) : reg y.value.layout = some (.product l') →
      (∀ e ∈ l'.fields, ∃ p, e.2.IsLink p ∧ Lacks F N r p) → (∃ e ∈ l'.fields, e.2.required = true) → Skip reg F N r y
  | sized (l' : SizedLayout Term) (i : ItemLayout Term) (is : List (ItemLayout Term)) (p : Term) :
      reg y.value.layout = some (.sized l') → l'.items = i :: is → i.IsLink p → Lacks F N r p → Skip reg F N r y
  | list (l' : OrderedLayout Term) (lit : RdfLit) : reg y.value.layout = some (.ordered l') →
      (r, .literal lit) ∈ F.terms → Skip reg F N r y

/-- How a layout represents a value. -/
def LayoutRep (c : DeCtx) (F : DeState) (N : IRes → Prop) (M : Term → IRes → Value → Prop) (r : IRes) (v : Value) :
    Layout Term → Prop
  | .unit l => N r ∧ v = l.const ∧ ∀ q ∈ l.dataset, quadInst [r] q ∈ F.out
  | .boolean _ => ∃ b, v = .literal (.boolean b) ∧ (r, .literal ⟨c.xsd.printBoolean b, .any c.xsd.boolean⟩) ∈ F.terms
  | .number l => ∃ q text i, l.datatype = .iri i ∧ c.xsd.isDecimal i = true ∧ c.xsd.printDecimal q = some text ∧
      v = .literal (.number q) ∧ (r, .literal ⟨text, .any i⟩) ∈ F.terms
  | .textString l => ∃ t i, l.datatype = .iri i ∧ v = .literal (.textString t) ∧ (r, .literal ⟨t, .any i⟩) ∈ F.terms
  | .id _ => ∃ t, v = .literal (.textString t) ∧ (r, .iri t) ∈ F.terms
  | .product l => ∃ m, v = .map m ∧ N r ∧ (∀ q ∈ l.dataset, quadInst [r] q ∈ F.out) ∧
      (∀ k v, (k, v) ∈ m → ∃ f, (k, f) ∈ l.fields) ∧
      (∀ k f, (k, f) ∈ l.fields → f.required = true → ∃ v, (k, v) ∈ m) ∧
      (∀ k v f, (k, v) ∈ m → (k, f) ∈ l.fields → FieldRep c F M r f v) ∧
      (∀ k f p, (k, f) ∈ l.fields → (∀ v, (k, v) ∉ m) → f.IsLink p → ∀ q ∈ F.out, q.s = r → q.p ≠ .term p)
  | .unordered l => ∃ vs, v = .list vs ∧ N r ∧ ∀ p, l.IsSet p → ∃ xs, List.Forall₂ (M l.item.value.layout) xs vs ∧
      (∀ x ∈ xs, lk r p x ∈ F.out) ∧ ∀ q ∈ F.out, q.s = r → q.p = .term p → ∃ x ∈ xs, q = lk r p x
  | .ordered l => ∃ vs, v = .list vs ∧ vs ≠ [] ∧ ∀ first rest tail, l.IsChain first rest tail →
      ChainRep F N (M l.node.value.layout) first rest tail r vs
  | .sized l => ∃ vs, v = .list vs ∧ N r ∧ (∀ q ∈ l.dataset, quadInst [r] q ∈ F.out) ∧
      List.Forall₂ (fun (i : ItemLayout Term) v => ∀ p, i.IsLink p → ∃ x, Only F r p x ∧ M i.value.layout x v) l.items vs
  | .sum l => ∃ before x after, l.variants = before ++ x :: after ∧
      (∀ q ∈ l.dataset ++ x.dataset, quadInst [r] q ∈ F.out) ∧ M x.value.layout r v ∧
      ∀ y ∈ before ++ after, Skip c.reg F N r y
  | _ => False

/-- The resource `r` represents the value `v`, read with the layout `ref`; `n` bounds the depth. -/
def Rep (c : DeCtx) (F : DeState) (N : IRes → Prop) : Nat → Term → IRes → Value → Prop
  | 0, _, _, _ => False
  | n + 1, ref, r, v => ∃ l, c.reg ref = some l ∧ LayoutRep c F N (Rep c F N n) r v l

variable {c : DeCtx} {F : DeState} {N N' : IRes → Prop}

theorem ChainRep.mono {M M' : IRes → Value → Prop} (hN : ∀ r, N r → N' r) (hM : ∀ r v, M r v → M' r v) {first rest tail}
    {h : IRes} {vs : List Value} (hc : ChainRep F N M first rest tail h vs) :
    ChainRep F N' M' first rest tail h vs := by
  induction vs generalizing h with
  | nil => exact hc
  | cons v vs ih =>
    obtain ⟨h1, h2, h3, x, next, h4, h5, h6, h7⟩ := hc
    exact ⟨hN _ h1, h2, h3, x, next, h4, h5, hM _ _ h6, ih h7⟩

theorem Lacks.mono (hN : ∀ r, N r → N' r) {r p} (h : Lacks F N r p) : Lacks F N' r p :=
  h.imp (And.imp_left (hN r)) id

theorem Skip.mono {reg : Registry Term} (hN : ∀ r, N r → N' r) {r y} (h : Skip reg F N r y) : Skip reg F N' r y := by
  cases h with
  | triple p o l' h1 h2 h3 => exact .triple p o l' h1 h2 (h3.imp (And.imp_left (hN r)) id)
  | literal l' d h1 h2 h3 => exact .literal l' d h1 h2 (h3.imp (hN r) id)
  | record l' h1 h2 h3 => exact .record l' h1 (fun e he => (h2 e he).imp fun p hp => ⟨hp.1, hp.2.mono hN⟩) h3
  | sized l' i is p h1 h2 h3 h4 => exact .sized l' i is p h1 h2 h3 (h4.mono hN)
  | list l' lit h1 h2 => exact .list l' lit h1 h2

theorem LayoutRep.mono {M M' : Term → IRes → Value → Prop} (hN : ∀ r, N r → N' r)
    (hM : ∀ ref r v, M ref r v → M' ref r v) {r : IRes} {v : Value} {l : Layout Term} (h : LayoutRep c F N M r v l) :
    LayoutRep c F N' M' r v l := by
  cases l with
  | unit l => exact ⟨hN _ h.1, h.2⟩
  | product l =>
    obtain ⟨m, h1, h2, h3, h4, h5, h6, h7⟩ := h
    refine ⟨m, h1, hN _ h2, h3, h4, h5, fun k v f hm hf => ?_, h7⟩
    have := h6 k v f hm hf
    refine ⟨fun p hp => ?_, fun hs => hM _ _ _ (this.self hs)⟩
    obtain ⟨x, hx, hm⟩ := this.link p hp
    exact ⟨x, hx, hM _ _ _ hm⟩
  | unordered l =>
    obtain ⟨vs, h1, h2, h3⟩ := h
    refine ⟨vs, h1, hN _ h2, fun p hp => ?_⟩
    obtain ⟨xs, h4, h5⟩ := h3 p hp
    exact ⟨xs, h4.imp fun _ _ => hM _ _ _, h5⟩
  | ordered l =>
    obtain ⟨vs, h1, h2, h3⟩ := h
    exact ⟨vs, h1, h2, fun first rest tail hc => (h3 first rest tail hc).mono hN (hM _)⟩
  | sized l =>
    obtain ⟨vs, h1, h2, h3, h4⟩ := h
    refine ⟨vs, h1, hN _ h2, h3, h4.imp fun i v hi p hp => ?_⟩
    obtain ⟨x, hx, hm⟩ := hi p hp
    exact ⟨x, hx, hM _ _ _ hm⟩
  | sum l =>
    obtain ⟨before, x, after, h1, h2, h3, h4⟩ := h
    exact ⟨before, x, after, h1, h2, hM _ _ _ h3, fun y hy => (h4 y hy).mono hN⟩
  | _ => exact h

theorem Rep.mono (hN : ∀ r, N r → N' r) (n : Nat) : ∀ {ref r v}, Rep c F N n ref r v → Rep c F N' n ref r v := by
  induction n with
  | zero => exact id
  | succ n ih =>
    rintro ref r v ⟨l, hl, h⟩
    exact ⟨l, hl, h.mono hN fun _ _ _ => ih⟩

/-! ## Frames -/

/-- `r` is not a term, and was created before the `lo`-th resource. -/
def Old (r : IRes) (lo : Nat) : Prop := (∀ t, r ≠ .term t) ∧ ∀ i, r = .anon i → i < lo

theorem Old.mono {r : IRes} {lo hi : Nat} (h : Old r lo) (hl : lo ≤ hi) : Old r hi :=
  ⟨h.1, fun i e => Nat.lt_of_lt_of_le (h.2 i e) hl⟩

/-- `F` extends `s'`, and adds nothing about the resources created from `lo` on and before `s'`. -/
structure Fr (F : DeState) (lo : Nat) (s' : DeState) : Prop where
  quads : ∀ q ∈ s'.out, q ∈ F.out
  terms : ∀ e ∈ s'.terms, e ∈ F.terms
  backQ : ∀ q ∈ F.out, ∀ i, q.s = .anon i → lo ≤ i → i < s'.fresh → q ∈ s'.out
  backT : ∀ e ∈ F.terms, ∀ i, e.1 = .anon i → lo ≤ i → i < s'.fresh → e ∈ s'.terms

/-- The quad says that `r` has the value `o` for the property `p`, for a pair of the set `E`. -/
def Extra (E : Term → Term → Prop) (r : IRes) (q : Quad IRes) : Prop := ∃ p o, E p o ∧ q = lk r p (.term o)

/-- `F` adds nothing to `s'` about `r`, except what is in `E`. -/
structure FrR (F : DeState) (E : Term → Term → Prop) (r : IRes) (s' : DeState) : Prop where
  quads : ∀ q ∈ F.out, q.s = r → q ∈ s'.out ∨ Extra E r q
  terms : ∀ t, (r, t) ∈ F.terms → (r, t) ∈ s'.terms

theorem Fr.mono {lo lo' : Nat} {s' : DeState} (h : Fr F lo s') (hl : lo ≤ lo') : Fr F lo' s' :=
  ⟨h.quads, h.terms, fun q hq i e h1 h2 => h.backQ q hq i e (Nat.le_trans hl h1) h2,
    fun q hq i e h1 h2 => h.backT q hq i e (Nat.le_trans hl h1) h2⟩

theorem Fr.one {lo i : Nat} {s' : DeState} (h : Fr F lo s') (h1 : lo ≤ i) (h2 : i < s'.fresh)
    (E : Term → Term → Prop) : FrR F E (.anon i) s' :=
  ⟨fun q hq e => .inl (h.backQ q hq i e h1 h2), fun t ht => h.backT (.anon i, t) ht i rfl h1 h2⟩

/-- If what happens from `s2` to `s'` only concerns resources of `A` and new ones, `F` adds nothing to `s2` either. -/
theorem Fr.shrink {A : IRes → Prop} {lo : Nat} {s2 s' : DeState} (h : Fr F lo s') (hf : Footprint A s2.fresh s2 s')
    (he : Extends s2 s') (hA : ∀ i, A (.anon i) → i < lo) : Fr F lo s2 where
  quads q hq := h.quads q (he.quads q hq)
  terms e hq := h.terms e (he.terms e hq)
  backQ q hq i e h1 h2 := by
    rcases hf.quads q (h.backQ q hq i e h1 (Nat.lt_of_lt_of_le h2 he.fresh)) with h3 | h3
    · exact h3
    · rcases h3.1 with h4 | ⟨t, h4⟩ | ⟨j, h4, h5, -⟩
      · rw [e] at h4; exact absurd (hA i h4) (by omega)
      · rw [e] at h4; exact absurd h4 (by simp)
      · rw [e] at h4; simp only [IRes.anon.injEq] at h4; omega
  backT q hq i e h1 h2 := by
    rcases hf.terms q (h.backT q hq i e h1 (Nat.lt_of_lt_of_le h2 he.fresh)) with h3 | h3
    · exact h3
    · rcases h3 with h4 | ⟨t, h4⟩ | ⟨j, h4, h5, -⟩
      · rw [e] at h4; exact absurd (hA i h4) (by omega)
      · rw [e] at h4; exact absurd h4 (by simp)
      · rw [e] at h4; simp only [IRes.anon.injEq] at h4; omega

theorem bounded_foot {A : IRes → Prop} {lo : Nat} {s s' : DeState} (hf : Footprint A lo s s')
    (hA : ∀ i, A (.anon i) → i < s'.fresh) (hs : Bounded s) : Bounded s' := by
  have key : ∀ r, Known A lo s'.fresh r → ∀ i, r = .anon i → i < s'.fresh := by
    rintro r (h1 | ⟨t, rfl⟩ | ⟨j, rfl, h1, h2⟩) i e
    · subst e; exact hA i h1
    · simp at e
    · simp only [IRes.anon.injEq] at e; omega
  constructor
  · intro q hq
    rcases hf.quads q hq with h1 | h1
    · exact (hs.quads q h1).mono fun r hr i e => Nat.lt_of_lt_of_le (hr i e) hf.fresh
    · exact h1.mono key
  · intro e he i hi'
    rcases hf.terms e he with h1 | h1
    · exact Nat.lt_of_lt_of_le (hs.terms e h1 i hi') hf.fresh
    · exact key _ h1 i hi'

/-! ## Nodes and their identifiers -/

/-- `r` has at most one name. -/
def Single (F : DeState) (r : IRes) : Prop := ∀ t t', (r, t) ∈ F.terms → (r, t') ∈ F.terms → t = t'

/-- `ns` lists resources created between `lo` and `hi`, with the identifier they have in the state `F`. All the resources
created between `lo` and `hi` have at most one name. -/
structure Nodes (F : DeState) (lo hi : Nat) (ns : List (IRes × Option String)) : Prop where
  nodup : (ns.map Prod.fst).Nodup
  range : ∀ e ∈ ns, ∃ i, e.1 = .anon i ∧ lo ≤ i ∧ i < hi
  named : ∀ a i, (a, some i) ∈ ns → (a, .iri i) ∈ F.terms
  unnamed : ∀ a, (a, none) ∈ ns → ∀ t, (a, t) ∉ F.terms
  single : ∀ i, lo ≤ i → i < hi → Single F (.anon i)

/-- The resources listed. -/
def In (ns : List (IRes × Option String)) (r : IRes) : Prop := r ∈ ns.map Prod.fst

/-- The identifiers listed. -/
def idsOf (ns : List (IRes × Option String)) : List String := ns.filterMap Prod.snd

theorem Nodes.nil (lo : Nat) : Nodes F lo lo [] := ⟨by simp, by simp, by simp, by simp, by intro i h1 h2; omega⟩

theorem Nodes.nil' {lo hi : Nat} (h : hi = lo) : Nodes F lo hi [] := h ▸ .nil _

theorem Nodes.append {lo mid hi : Nat} {ns ns'} (h : Nodes F lo mid ns) (h' : Nodes F mid hi ns') (h1 : lo ≤ mid)
    (h2 : mid ≤ hi) : Nodes F lo hi (ns ++ ns') where
  nodup := by
    rw [List.map_append, List.nodup_append]
    refine ⟨h.nodup, h'.nodup, ?_⟩
    rintro a ha b hb rfl
    obtain ⟨e, he, rfl⟩ := List.mem_map.1 ha
    obtain ⟨e', he', h3⟩ := List.mem_map.1 hb
    obtain ⟨i, e1, -, h4⟩ := h.range e he
    obtain ⟨j, e2, h5, -⟩ := h'.range e' he'
    rw [← h3, e2] at e1
    simp only [IRes.anon.injEq] at e1
    omega
  range e he := by
    rcases List.mem_append.1 he with he | he
    · obtain ⟨i, e1, h3, h4⟩ := h.range e he
      exact ⟨i, e1, h3, by omega⟩
    · obtain ⟨i, e1, h3, h4⟩ := h'.range e he
      exact ⟨i, e1, by omega, h4⟩
  named a i hm := by
    rcases List.mem_append.1 hm with he | he
    · exact h.named a i he
    · exact h'.named a i he
  unnamed a hm := by
    rcases List.mem_append.1 hm with he | he
    · exact h.unnamed a he
    · exact h'.unnamed a he
  single i h3 h4 := by
    by_cases h5 : i < mid
    · exact h.single i h3 h5
    · exact h'.single i (by omega) h4

/-- `own` describes the resource `r` itself: nothing if it is not a node, otherwise its identifier. -/
structure Own (F : DeState) (r : IRes) (own : List (IRes × Option String)) : Prop where
  node : own = [] ∨ ∃ o, own = [(r, o)] ∧ (∀ i, o = some i → (r, .iri i) ∈ F.terms) ∧ (o = none → ∀ t, (r, t) ∉ F.terms)
  single : Single F r

theorem Own.nodes {i lo hi : Nat} {own ns} (ho : Own F (.anon i) own) (h : Nodes F lo hi ns) (h1 : lo = i + 1) (h2 : lo ≤ hi) :
    Nodes F i hi (own ++ ns) := by
  refine Nodes.append (mid := lo) ?_ h (by omega) h2
  have hs : ∀ j, i ≤ j → j < lo → Single F (.anon j) := by
    intro j h3 h4
    obtain rfl : j = i := by omega
    exact ho.single
  rcases ho.node with rfl | ⟨o, rfl, h3, h4⟩
  · exact ⟨by simp, by simp, by simp, by simp, hs⟩
  · refine ⟨by simp, ?_, ?_, ?_, hs⟩
    · simp only [List.mem_singleton, forall_eq]
      exact ⟨i, rfl, Nat.le_refl _, by omega⟩
    · simp only [List.mem_singleton, Prod.mk.injEq, and_imp]
      rintro a j rfl rfl
      exact h3 j rfl
    · simp only [List.mem_singleton, Prod.mk.injEq, and_imp]
      rintro a rfl rfl
      exact h4 rfl

theorem in_append {ns ns' : List (IRes × Option String)} {r : IRes} : In (ns ++ ns') r ↔ In ns r ∨ In ns' r := by
  simp [In]

/-- No name is given to a term. -/
def NoTerms (s : DeState) : Prop := ∀ e ∈ s.terms, ∀ t, e.1 ≠ .term t

/-- The layout `ref` may write the quad `q` about `r`. -/
def Written (reg : Registry Term) (ref : Term) (r : IRes) (q : Quad IRes) : Prop :=
  ∃ p x, q = lk r p x ∧ ((∃ o, x = .term o ∧ LayoutWrites reg p o ref) ∨ ∀ o, LayoutWrites reg p o ref)

/-- What `r` stands for: a node, a literal, or an identifier. -/
def Kind (reg : Registry Term) (F : DeState) (own : List (IRes × Option String)) (r : IRes) (ref : Term) : Prop :=
  In own r ∨ (∃ text i, (r, .literal ⟨text, .any i⟩) ∈ F.terms ∧ WritesLiteral reg (.iri i) ref) ∨
    ∃ l, reg ref = some (.id l)

theorem idsOf_append (ns ns' : List (IRes × Option String)) : idsOf (ns ++ ns') = idsOf ns ++ idsOf ns' := by
  simp [idsOf]

end Verif.RoundTrip
