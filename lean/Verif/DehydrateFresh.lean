import Verif.DehydrateSpec
import Verif.DehydrateLemmas

/-! # Resources created during dehydration are fresh -/

set_option linter.unusedSectionVars false
set_option linter.unusedSimpArgs false

namespace Verif

theorem Known.mono {A : IRes → Prop} {lo hi hi' : Nat} {r : IRes} (h : Known A lo hi r) (hh : hi ≤ hi') :
    Known A lo hi' r := by
  rcases h with h | h | ⟨i, h, h1, h2⟩
  · exact .inl h
  · exact .inr (.inl h)
  · exact .inr (.inr ⟨i, h, h1, by omega⟩)

theorem Quad.Uses.mono {K K' : IRes → Prop} {q : Quad IRes} (h : q.Uses K) (hk : ∀ r, K r → K' r) : q.Uses K' :=
  ⟨hk _ h.1, hk _ h.2.1, hk _ h.2.2.1, fun g hg => hk _ (h.2.2.2 g hg)⟩

theorem Footprint.refl (A : IRes → Prop) (lo : Nat) (s : DeState) : Footprint A lo s s :=
  ⟨Nat.le_refl _, fun _ h => .inl h, fun _ h => .inl h⟩

theorem Footprint.trans {A : IRes → Prop} {lo : Nat} {a b c : DeState} (h1 : Footprint A lo a b)
    (h2 : Footprint A lo b c) : Footprint A lo a c where
  fresh := Nat.le_trans h1.fresh h2.fresh
  quads q hq := by
    rcases h2.quads q hq with h | h
    · rcases h1.quads q h with h | h
      · exact .inl h
      · exact .inr (h.mono fun r hr => hr.mono h2.fresh)
    · exact .inr h
  terms e he := by
    rcases h2.terms e he with h | h
    · rcases h1.terms e h with h | h
      · exact .inl h
      · exact .inr (h.mono h2.fresh)
    · exact .inr h

namespace Dehydrate

variable {A : IRes → Prop} {lo : Nat}

/-- All the resources of the environment satisfy `K`. -/
def EnvIn (K : IRes → Prop) (env : Env IRes) : Prop := ∀ r ∈ env.flat, K r

theorem EnvIn.mono {K K' : IRes → Prop} {env : Env IRes} (h : EnvIn K env) (hk : ∀ r, K r → K' r) : EnvIn K' env :=
  fun r hr => hk r (h r hr)

theorem EnvIn.intro {env : Env IRes} {hi k : Nat} (hlo : lo ≤ hi) (h : EnvIn (Known A lo hi) env) :
    EnvIn (Known A lo (hi + k)) (.child env (freshList hi k)) := by
  intro r hr
  rw [Env.flat, List.mem_append] at hr
  rcases hr with hr | hr
  · exact (h r hr).mono (by omega)
  · obtain ⟨i, rfl, h1, h2⟩ := mem_freshList.1 hr
    exact .inr (.inr ⟨i, rfl, by omega, h2⟩)

theorem instPattern_in {env : Env IRes} {hi : Nat} (h : EnvIn (Known A lo hi) env) {p : Pattern Term} {r : IRes}
    (hr : instPattern env p = .ok r) : Known A lo hi r := by
  cases p with
  | res t =>
    simp only [instPattern, Out.ok.injEq] at hr
    exact .inr (.inl ⟨t, hr.symm⟩)
  | var x =>
    simp only [instPattern, Env.get_eq] at hr
    cases hx : env.flat[x]? with
    | none => rw [hx] at hr; simp at hr
    | some r' =>
      rw [hx] at hr
      simp only [Out.ok.injEq] at hr
      subst hr
      exact h _ (List.mem_of_getElem? hx)

theorem instPatterns_in {env : Env IRes} {hi : Nat} (h : EnvIn (Known A lo hi) env) {ps : List (Pattern Term)}
    {rs : List IRes} (hr : instPatterns env ps = .ok rs) : ∀ r ∈ rs, Known A lo hi r := by
  rw [instPatterns, Out.mapM'_eq_ok] at hr
  induction hr with
  | nil => simp
  | cons h1 _ ih =>
    intro r hr
    rcases List.mem_cons.1 hr with rfl | hr
    · exact instPattern_in h h1
    · exact ih r hr

theorem instQuad_in {env : Env IRes} {hi : Nat} (h : EnvIn (Known A lo hi) env) {p : QuadPat Term} {q : Quad IRes}
    (hq : instQuad env p = .ok q) : q.Uses (Known A lo hi) := by
  simp only [instQuad, Out.bind_eq_ok] at hq
  obtain ⟨s, hs, p', hp, o, ho, hq⟩ := hq
  have h1 := instPattern_in h hs
  have h2 := instPattern_in h hp
  have h3 := instPattern_in h ho
  split at hq
  · simp only [Out.ok.injEq] at hq
    subst hq
    exact ⟨h1, h2, h3, by simp⟩
  · rw [Out.bind_eq_ok] at hq
    obtain ⟨g, hg, hq⟩ := hq
    simp only [Out.ok.injEq] at hq
    subst hq
    refine ⟨h1, h2, h3, ?_⟩
    intro g' hg'
    simp only [Option.some.injEq] at hg'
    subst hg'
    exact instPattern_in h hg

theorem foot_bind {α β : Type} {x : DeM α} {f : α → DeM β} {s : DeState} (hx : Footprint A lo s (x s).2)
    (hf : ∀ a s1, x s = (.ok a, s1) → Footprint A lo s s1 → Footprint A lo s1 (f a s1).2) :
    Footprint A lo s (x.bind f s).2 := by
  unfold DeM.bind
  rcases h : x s with ⟨a | e | _ | _, s'⟩ <;> rw [h] at hx
  · exact hx.trans (hf a s' h hx)
  all_goals exact hx

theorem foot_read {α : Type} (f : DeState → Out DeError α) (s : DeState) : Footprint A lo s (DeM.read f s).2 :=
  .refl _ _ _

theorem foot_insert {s : DeState} {q : Quad IRes} (hq : q.Uses (Known A lo s.fresh)) :
    Footprint A lo s { s with out := insertQuad s.out q } where
  fresh := Nat.le_refl _
  quads q' h := by
    rcases mem_insertQuad.1 h with h | rfl
    · exact .inl h
    · exact .inr hq
  terms _ h := .inl h

theorem foot_foldl {s : DeState} {qs : List (Quad IRes)} (hq : ∀ q ∈ qs, q.Uses (Known A lo s.fresh)) :
    Footprint A lo s { s with out := qs.foldl insertQuad s.out } where
  fresh := Nat.le_refl _
  quads q' h := by
    rcases mem_foldl_insertQuad.1 h with h | h
    · exact .inl h
    · exact .inr (hq _ h)
  terms _ h := .inl h

theorem foot_fresh (s : DeState) (k : Nat) : Footprint A lo s { s with fresh := s.fresh + k } where
  fresh := Nat.le_add_right _ _
  quads _ h := .inl h
  terms _ h := .inl h

theorem foot_instDataset {env : Env IRes} {s : DeState} (h : EnvIn (Known A lo s.fresh) env)
    (qs : List (QuadPat Term)) : Footprint A lo s (instDataset env qs s).2 := by
  induction qs generalizing s with
  | nil => exact .refl _ _ _
  | cons q qs ih =>
    refine foot_bind (foot_read _ _) fun q' s1 h1 _ => ?_
    rw [DeM.read_eq_ok] at h1
    obtain ⟨h1, rfl⟩ := h1
    exact (foot_insert (instQuad_in h h1)).trans (ih (s := { s1 with out := insertQuad s1.out q' }) h)

/-- `intro` followed by something that has a footprint. -/
theorem foot_intro {β : Type} {env : Env IRes} {s : DeState} (hlo : lo ≤ s.fresh) (h : EnvIn (Known A lo s.fresh) env)
    (k : Nat) {f : Env IRes → DeM β}
    (hf : ∀ env' s1, lo ≤ s1.fresh → EnvIn (Known A lo s1.fresh) env' → Footprint A lo s1 (f env' s1).2) :
    Footprint A lo s ((intro env k).bind f s).2 := by
  rw [intro_bind]
  refine (foot_fresh s k).trans (hf _ _ (Nat.le_trans hlo (Nat.le_add_right _ _)) ?_)
  exact h.intro hlo

/-- `instantiate_dataset` followed by something that has a footprint. -/
theorem foot_dataset {β : Type} {env : Env IRes} {s : DeState} (hlo : lo ≤ s.fresh)
    (h : EnvIn (Known A lo s.fresh) env) (qs : List (QuadPat Term)) {f : Unit → DeM β}
    (hf : ∀ s1, lo ≤ s1.fresh → EnvIn (Known A lo s1.fresh) env → Footprint A lo s1 (f () s1).2) :
    Footprint A lo s ((instDataset env qs).bind f s).2 :=
  foot_bind (foot_instDataset h qs) fun _ _ _ hf1 =>
    hf _ (Nat.le_trans hlo hf1.fresh) (h.mono fun _ hr => hr.mono hf1.fresh)

theorem foot_assign {s : DeState} {r : IRes} (h : Known A lo s.fresh r) (t : Term) :
    Footprint A lo s (assign r t s).2 where
  fresh := Nat.le_refl _
  quads _ h := .inl h
  terms e he := by
    simp only [assign, DeM.modify] at he
    split at he
    · exact .inl he
    · rcases List.mem_append.1 he with he | he
      · exact .inl he
      · simp only [List.mem_singleton] at he
        subst he
        exact .inr h

/-- The footprint of a computation, whatever its outcome. -/
def Foot {α : Type} (A : IRes → Prop) (lo : Nat) (s : DeState) (x : DeM α) : Prop := Footprint A lo s (x s).2

/-- What is assumed of the recursive call. -/
def RecFoot (rec : Rec) : Prop :=
  ∀ (A : IRes → Prop) lo v g ref ins s, lo ≤ s.fresh → (∀ r ∈ ins, Known A lo s.fresh r) →
    Footprint A lo s (rec v g ref ins s).2

theorem foot_subValue {rec : Rec} (hrec : RecFoot rec) (graph : Option IRes) (fmt : ValueFormat Term)
    {env : Env IRes} {s : DeState} (hlo : lo ≤ s.fresh) (h : EnvIn (Known A lo s.fresh) env) (v : Value) :
    Footprint A lo s (subValue rec graph fmt env v s).2 := by
  refine foot_bind (foot_read _ _) fun ins s1 h1 _ => foot_bind (foot_read _ _) fun g s2 h2 _ => ?_
  rw [DeM.read_eq_ok] at h1 h2
  obtain ⟨h1, rfl⟩ := h1
  obtain ⟨-, rfl⟩ := h2
  exact hrec A lo v g _ ins _ hlo (instPatterns_in h h1)

/-- `dehydrate_sub_value` followed by something that has a footprint. -/
theorem foot_sub {β : Type} {rec : Rec} (hrec : RecFoot rec) (graph : Option IRes) (fmt : ValueFormat Term)
    {env : Env IRes} {s : DeState} (hlo : lo ≤ s.fresh) (h : EnvIn (Known A lo s.fresh) env) (v : Value)
    {f : Unit → DeM β} (hf : ∀ s1, s.fresh ≤ s1.fresh → Footprint A lo s1 (f () s1).2) :
    Footprint A lo s ((subValue rec graph fmt env v).bind f s).2 :=
  foot_bind (foot_subValue hrec graph fmt hlo h v) fun _ _ _ hf1 => hf _ hf1.fresh

theorem foot_variants {rec : Rec} (hrec : RecFoot rec) (graph : Option IRes) {env : Env IRes} (v : Value)
    (vs : List (Variant Term)) (sel : Option (List (Quad IRes))) {s : DeState} (hlo : lo ≤ s.fresh)
    (h : EnvIn (Known A lo s.fresh) env) (hsel : ∀ qs, sel = some qs → ∀ q ∈ qs, q.Uses (Known A lo s.fresh)) :
    Footprint A lo s (variants rec graph env v vs sel s).2 := by
  induction vs generalizing sel s with
  | nil =>
    cases sel with
    | none => exact .refl _ _ _
    | some quads => exact foot_foldl (hsel quads rfl)
  | cons x vs ih =>
    unfold variants
    rw [intro_bind]
    refine (foot_fresh s x.intro).trans (foot_bind (foot_read _ _) fun quads s1 h1 _ => ?_)
    rw [DeM.read_eq_ok] at h1
    obtain ⟨h1, rfl⟩ := h1
    have hv : EnvIn (Known A lo (s.fresh + x.intro)) (.child env (freshList s.fresh x.intro)) := h.intro hlo
    have hlo' : lo ≤ s.fresh + x.intro := by omega
    have hq : ∀ q ∈ quads, q.Uses (Known A lo (s.fresh + x.intro)) := by
      rw [instLocal, Out.mapM'_eq_ok] at h1
      clear hsel ih
      generalize x.dataset = ds at h1
      induction h1 with
      | nil => simp
      | cons hq _ ih =>
        intro q' hq'
        rcases List.mem_cons.1 hq' with rfl | hq'
        · exact instQuad_in hv hq
        · exact ih q' hq'
    have hsub := foot_subValue (A := A) hrec graph x.value (s := { s with fresh := s.fresh + x.intro }) hlo' hv v
    rcases hr : subValue rec graph x.value (.child env (freshList s.fresh x.intro)) v
      { s with fresh := s.fresh + x.intro } with ⟨a | e | _ | _, s'⟩ <;> rw [hr] at hsub <;> simp only <;> dsimp only at hsub
    · cases sel with
      | some _ => exact hsub
      | none =>
        refine hsub.trans (ih (some quads) (Nat.le_trans hlo' hsub.fresh) (h.mono fun _ hr => hr.mono ?_) ?_)
        · have := hsub.fresh; simp only at this; omega
        · rintro qs ⟨⟩ q hqm
          exact (hq q hqm).mono fun _ hr => hr.mono hsub.fresh
    · refine hsub.trans (ih sel (Nat.le_trans hlo' hsub.fresh) (h.mono fun _ hr => hr.mono ?_) ?_)
      · have := hsub.fresh; simp only at this; omega
      · intro qs hqs q hqm
        refine (hsel qs hqs q hqm).mono fun _ hr => hr.mono ?_
        have := hsub.fresh; simp only at this; omega
    · exact hsub
    · exact hsub

theorem foot_entries {rec : Rec} (hrec : RecFoot rec) (graph : Option IRes) {env : Env IRes}
    (fields : List (Value × Field Term)) (m : List (Value × Value)) {s : DeState} (hlo : lo ≤ s.fresh)
    (h : EnvIn (Known A lo s.fresh) env) : Footprint A lo s (entries rec graph env fields m s).2 := by
  induction m generalizing s with
  | nil => exact .refl _ _ _
  | cons e m ih =>
    obtain ⟨key, v⟩ := e
    unfold entries
    show Foot A lo s _
    split
    · refine foot_bind (x := intro env _) ?_ fun env' s1 h1 hs1 => ?_
      · rw [intro_eq]; exact foot_fresh _ _
      · rw [intro_eq] at h1
        simp only [Prod.mk.injEq, Out.ok.injEq] at h1
        obtain ⟨rfl, rfl⟩ := h1
        have hlo' := Nat.le_trans hlo hs1.fresh
        refine foot_dataset hlo' (h.intro hlo) _ fun s2 h2 he2 => ?_
        refine foot_bind (foot_subValue hrec _ _ h2 he2 _) fun _ s3 _ hs3 => ?_
        exact ih (Nat.le_trans h2 hs3.fresh) (fun r hr => (he2 r (by simp [Env.flat, hr])).mono hs3.fresh)
    · exact .refl _ _ _

theorem foot_items {rec : Rec} (hrec : RecFoot rec) (graph : Option IRes) {env : Env IRes}
    (item : ItemLayout Term) (vs : List Value) {s : DeState} (hlo : lo ≤ s.fresh)
    (h : EnvIn (Known A lo s.fresh) env) : Footprint A lo s (items rec graph env item vs s).2 := by
  induction vs generalizing s with
  | nil => exact .refl _ _ _
  | cons v vs ih =>
    unfold items
    rw [intro_bind]
    refine (foot_fresh s item.intro).trans (foot_dataset (by simp only; omega) (h.intro hlo) _ fun s2 h2 he2 => ?_)
    refine foot_bind (foot_subValue hrec _ _ h2 he2 _) fun _ s3 _ hs3 => ?_
    exact ih (Nat.le_trans h2 hs3.fresh) (fun r hr => (he2 r (by simp [Env.flat, hr])).mono hs3.fresh)

theorem foot_nodes {rec : Rec} (hrec : RecFoot rec) (graph : Option IRes) {env : Env IRes}
    (node : ItemLayout Term) (tail : Pattern Term) (head : IRes) (vs : List Value) {s : DeState} (hlo : lo ≤ s.fresh)
    (h : EnvIn (Known A lo s.fresh) env) (hh : Known A lo s.fresh head) :
    Footprint A lo s (nodes rec graph env node tail head vs s).2 := by
  induction vs generalizing s head with
  | nil => exact .refl _ _ _
  | cons v vs ih =>
    unfold nodes
    have hnext : ∀ next s1, (if vs.isEmpty then DeM.read fun _ => instPattern env tail else newResource) s =
        (.ok next, s1) → Known A lo s1.fresh next := by
      intro next s1 h1
      split at h1
      · rw [DeM.read_eq_ok] at h1
        obtain ⟨h1, rfl⟩ := h1
        exact instPattern_in h h1
      · simp only [newResource, Prod.mk.injEq, Out.ok.injEq] at h1
        obtain ⟨rfl, rfl⟩ := h1
        exact .inr (.inr ⟨s.fresh, rfl, hlo, Nat.lt_succ_self _⟩)
    refine foot_bind ?_ fun next s1 h1 hs1 => ?_
    · split
      · exact foot_read _ _
      · exact foot_fresh s 1
    · have hn := hnext next s1 h1
      have hlo1 := Nat.le_trans hlo hs1.fresh
      have he1 : EnvIn (Known A lo s1.fresh) (env.bind [head, next]) := by
        intro r hr
        simp only [Env.bind, Env.flat, List.mem_append, List.mem_cons, List.not_mem_nil, or_false] at hr
        rcases hr with hr | rfl | rfl
        · exact (h r hr).mono hs1.fresh
        · exact hh.mono hs1.fresh
        · exact hn
      rw [intro_bind]
      refine (foot_fresh s1 node.intro).trans
        (foot_dataset (by simp only; omega) (he1.intro hlo1) _ fun s2 h2 he2 => ?_)
      refine foot_bind (foot_subValue hrec _ _ h2 he2 _) fun _ s3 _ hs3 => ?_
      refine ih next (Nat.le_trans h2 hs3.fresh) (fun r hr => (he2 r ?_).mono hs3.fresh) ((he2 next ?_).mono hs3.fresh)
      · simp [Env.flat, Env.bind, hr]
      · simp [Env.flat, Env.bind]

theorem foot_sizedItems {rec : Rec} (hrec : RecFoot rec) (graph : Option IRes) {env : Env IRes}
    (vs : List Value) (is : List (ItemLayout Term)) {s : DeState} (hlo : lo ≤ s.fresh)
    (h : EnvIn (Known A lo s.fresh) env) : Footprint A lo s (sizedItems rec graph env vs is s).2 := by
  induction vs generalizing s is with
  | nil =>
    cases is <;> exact .refl _ _ _
  | cons v vs ih =>
    cases is with
    | nil => exact .refl _ _ _
    | cons item is =>
      unfold sizedItems
      rw [intro_bind]
      refine (foot_fresh s item.intro).trans (foot_dataset (by simp only; omega) (h.intro hlo) _ fun s2 h2 he2 => ?_)
      refine foot_bind (foot_subValue hrec _ _ h2 he2 _) fun _ s3 _ hs3 => ?_
      exact ih is (Nat.le_trans h2 hs3.fresh) (fun r hr => (he2 r (by simp [Env.flat, hr])).mono hs3.fresh)

theorem pres_requireKeys_foot (ref : Term) (m : List (Value × Value)) (fields : List (Value × Field Term))
    (s : DeState) : Footprint A lo s (requireKeys ref m fields s).2 := by
  induction fields with
  | nil => exact .refl _ _ _
  | cons e fs ih =>
    obtain ⟨key, field⟩ := e
    unfold requireKeys
    show Foot A lo s _
    split
    · exact .refl _ _ _
    · exact ih

theorem foot_data {inputs : List IRes} {s : DeState} (hlo : lo ≤ s.fresh) (hin : ∀ r ∈ inputs, Known A lo s.fresh r)
    (l : DataLayout Term) (lit : List String → Out DeError RdfLit) : Footprint A lo s (data inputs l lit s).2 := by
  refine foot_intro hlo (env := .root inputs) hin _ fun env s1 h1 he1 => ?_
  refine foot_dataset h1 he1 _ fun s2 _ he2 => foot_bind (foot_read _ _) fun r s3 h3 _ =>
    foot_bind (foot_read _ _) fun lit s4 h4 _ => ?_
  rw [DeM.read_eq_ok] at h3 h4
  obtain ⟨h3, rfl⟩ := h3
  obtain ⟨-, rfl⟩ := h4
  exact foot_assign (instPattern_in he2 h3) _

theorem foot_layout (c : DeCtx) {rec : Rec} (hrec : RecFoot rec) (v : Value) (graph : Option IRes) (ref : Term)
    {inputs : List IRes} {s : DeState} (hlo : lo ≤ s.fresh) (hin : ∀ r ∈ inputs, Known A lo s.fresh r)
    (l : Layout Term) : Footprint A lo s (layout c rec v graph ref inputs l s).2 := by
  have hroot : EnvIn (Known A lo s.fresh) (.root inputs) := hin
  cases l with
  | never => exact .refl _ _ _
  | always => exact .refl _ _ _
  | unit l =>
    simp only [layout]
    show Foot A lo s _
    split
    · exact foot_intro hlo hroot _ fun env s1 h1 he1 => foot_instDataset he1 _
    · exact .refl _ _ _
  | boolean l =>
    simp only [layout]
    show Foot A lo s _
    split
    · exact foot_data hlo hin _ _
    · exact .refl _ _ _
  | number l =>
    simp only [layout]
    show Foot A lo s _
    split
    · exact foot_data hlo hin _ _
    · exact .refl _ _ _
  | byteString l =>
    simp only [layout]
    show Foot A lo s _
    split
    · exact foot_data hlo hin _ _
    · exact .refl _ _ _
  | textString l =>
    simp only [layout]
    show Foot A lo s _
    split
    · exact foot_data hlo hin _ _
    · exact .refl _ _ _
  | id l =>
    simp only [layout]
    show Foot A lo s _
    split
    · refine foot_intro hlo hroot _ fun env s1 h1 he1 => foot_dataset h1 he1 _ fun s2 _ he2 =>
        foot_bind (foot_read _ _) fun r s3 h3 _ => ?_
      rw [DeM.read_eq_ok] at h3
      obtain ⟨h3, rfl⟩ := h3
      split
      · exact foot_assign (instPattern_in he2 h3) _
      · exact .refl _ _ _
    · exact .refl _ _ _
  | sum l =>
    exact foot_intro hlo hroot _ fun env s1 h1 he1 => foot_dataset h1 he1 _ fun s2 h2 he2 =>
      foot_variants hrec graph v l.variants none h2 he2 (by simp)
  | product l =>
    simp only [layout]
    show Foot A lo s _
    split
    · exact foot_intro hlo hroot _ fun env s1 h1 he1 => foot_dataset h1 he1 _ fun s2 h2 he2 =>
        foot_bind (foot_entries hrec graph _ _ h2 he2) fun _ _ _ _ => pres_requireKeys_foot _ _ _ _
    · exact .refl _ _ _
  | unordered l =>
    simp only [layout]
    show Foot A lo s _
    split
    · exact foot_intro hlo hroot _ fun env s1 h1 he1 => foot_dataset h1 he1 _ fun s2 h2 he2 =>
        foot_items hrec graph _ _ h2 he2
    · exact .refl _ _ _
  | ordered l =>
    simp only [layout]
    show Foot A lo s _
    split
    · refine foot_intro hlo hroot _ fun env s1 h1 he1 => foot_dataset h1 he1 _ fun s2 h2 he2 =>
        foot_bind (foot_read _ _) fun head s3 h3 _ => ?_
      rw [DeM.read_eq_ok] at h3
      obtain ⟨h3, rfl⟩ := h3
      exact foot_nodes hrec graph _ _ _ _ h2 he2 (instPattern_in he2 h3)
    · exact .refl _ _ _
  | sized l =>
    simp only [layout]
    show Foot A lo s _
    split
    · exact foot_intro hlo hroot _ fun env s1 h1 he1 => foot_dataset h1 he1 _ fun s2 h2 he2 =>
        foot_sizedItems hrec graph _ _ h2 he2
    · exact .refl _ _ _

theorem foot_dehydrateWith (c : DeCtx) (n : Nat) : RecFoot (dehydrateWith c n) := by
  induction n with
  | zero => intro A lo v g ref ins s _ _; exact .refl _ _ _
  | succ n ih =>
    intro A lo v g ref ins s hlo hin
    unfold dehydrateWith
    show Foot A lo s _
    split
    · exact .refl _ _ _
    · split
      · exact .refl _ _ _
      · exact foot_layout c ih v g ref hlo hin _

end Dehydrate

end Verif
