import Verif.DehydrateFresh
import Verif.RenameSpec

/-! # The terms that occur in a dehydrated dataset -/

set_option linter.unusedSectionVars false
set_option linter.unusedSimpArgs false

namespace Verif

/-- Not a blank node. -/
def Term.NotBlank : Term → Prop
  | .blank _ => False
  | _ => True

/-- The quads and the resources of the state are in `K`, and no blank node was assigned to a resource. -/
structure DeState.Good (K : IRes → Prop) (s : DeState) : Prop where
  quads : ∀ q ∈ s.out, q.Uses K
  terms : ∀ r t, (r, t) ∈ s.terms → K r ∧ t.NotBlank

namespace Dehydrate

variable {K : IRes → Prop}

/-- The computation only adds resources of `K`. -/
def StaysIn {α : Type} (K : IRes → Prop) (x : DeM α) : Prop := ∀ s, s.Good K → (x s).2.Good K

theorem staysIn_bind {α β : Type} {x : DeM α} {f : α → DeM β} (hx : StaysIn K x)
    (hf : ∀ a s s', x s = (.ok a, s') → StaysIn K (f a)) : StaysIn K (x.bind f) := by
  intro s hs
  have h := hx s hs
  unfold DeM.bind
  rcases hr : x s with ⟨a | e | _ | _, s'⟩ <;> rw [hr] at h
  · exact hf a s s' hr s' h
  · exact h
  · exact h
  · exact h

theorem staysIn_id {α : Type} {x : DeM α} (h : ∀ s, (x s).2.out = s.out ∧ (x s).2.terms = s.terms) : StaysIn K x := by
  intro s hs
  obtain ⟨h1, h2⟩ := h s
  exact ⟨by rw [h1]; exact hs.quads, by rw [h2]; exact hs.terms⟩

theorem staysIn_read {α : Type} (f : DeState → Out DeError α) : StaysIn K (DeM.read f) := staysIn_id fun _ => ⟨rfl, rfl⟩

theorem staysIn_fail {α : Type} (e : DeError) : StaysIn K (DeM.fail e : DeM α) := staysIn_id fun _ => ⟨rfl, rfl⟩

theorem staysIn_pure {α : Type} (a : α) : StaysIn K (DeM.pure a) := staysIn_id fun _ => ⟨rfl, rfl⟩

theorem staysIn_assign {r : IRes} (hr : K r) {t : Term} (ht : t.NotBlank) : StaysIn K (assign r t) := by
  intro s hs
  refine ⟨hs.quads, fun r' t' h => ?_⟩
  simp only [assign, DeM.modify] at h
  split at h
  · exact hs.terms _ _ h
  · rcases List.mem_append.1 h with h | h
    · exact hs.terms _ _ h
    · simp only [List.mem_singleton, Prod.mk.injEq] at h
      obtain ⟨rfl, rfl⟩ := h
      exact ⟨hr, ht⟩

/-- All anonymous resources, and the constants of the layout, are in `K`. -/
def Contains (K : IRes → Prop) (l : Layout Term) : Prop := ∀ t, l.HasConstant t → K (.term t)

/-- The constants of the pattern are in `K`. -/
def ContainsPat (K : IRes → Prop) (p : Pattern Term) : Prop := ∀ t, p = .res t → K (.term t)

/-- The constants of the patterns are in `K`. -/
def ContainsPats (K : IRes → Prop) (ps : List (QuadPat Term)) : Prop := ∀ t, PatsHaveConstant ps t → K (.term t)

/-- The constants of the value format are in `K`. -/
def ContainsFmt (K : IRes → Prop) (f : ValueFormat Term) : Prop := ∀ t, f.HasConstant t → K (.term t)

theorem instPattern_staysIn {env : Env IRes} (h : EnvIn K env) {p : Pattern Term} (hp : ContainsPat K p) {r : IRes}
    (hr : instPattern env p = .ok r) : K r := by
  cases p with
  | res t => simp only [instPattern, Out.ok.injEq] at hr; exact hr ▸ hp t rfl
  | var x =>
    simp only [instPattern, Env.get_eq] at hr
    cases hx : env.flat[x]? with
    | none => rw [hx] at hr; simp at hr
    | some r' =>
      rw [hx] at hr
      simp only [Out.ok.injEq] at hr
      exact hr ▸ h r' (List.mem_of_getElem? hx)

theorem instPatterns_staysIn {env : Env IRes} (h : EnvIn K env) {ps : List (Pattern Term)} (hp : ∀ p ∈ ps, ContainsPat K p)
    {rs : List IRes} (hr : instPatterns env ps = .ok rs) : ∀ r ∈ rs, K r := by
  rw [instPatterns, Out.mapM'_eq_ok] at hr
  induction hr with
  | nil => simp
  | cons h1 _ ih =>
    rw [List.forall_mem_cons] at hp ⊢
    exact ⟨instPattern_staysIn h hp.1 h1, ih hp.2⟩

theorem instQuad_staysIn {env : Env IRes} (h : EnvIn K env) {ps : List (QuadPat Term)} (hp : ContainsPats K ps) {p : QuadPat Term}
    (hm : p ∈ ps) {q : Quad IRes} (hq : instQuad env p = .ok q) : q.Uses K := by
  have h1 : ContainsPat K p.s := fun t e => hp t ⟨p, hm, .inl e⟩
  have h2 : ContainsPat K p.p := fun t e => hp t ⟨p, hm, .inr (.inl e)⟩
  have h3 : ContainsPat K p.o := fun t e => hp t ⟨p, hm, .inr (.inr (.inl e))⟩
  simp only [instQuad, Out.bind_eq_ok] at hq
  obtain ⟨s, hs, p', hp', o, ho, hq⟩ := hq
  cases hg : p.g with
  | none =>
    simp only [hg, Out.ok.injEq] at hq
    subst hq
    exact ⟨instPattern_staysIn h h1 hs, instPattern_staysIn h h2 hp', instPattern_staysIn h h3 ho, by simp⟩
  | some g =>
    simp only [hg, Out.bind_eq_ok] at hq
    obtain ⟨g', hg', hq⟩ := hq
    simp only [Out.ok.injEq] at hq
    subst hq
    refine ⟨instPattern_staysIn h h1 hs, instPattern_staysIn h h2 hp', instPattern_staysIn h h3 ho, ?_⟩
    rintro _ ⟨⟩
    exact instPattern_staysIn h (fun t e => hp t ⟨p, hm, .inr (.inr (.inr (e ▸ hg)))⟩) hg'

theorem staysIn_insert {q : Quad IRes} (hq : q.Uses K) : StaysIn K (DeM.modify fun s => { s with out := insertQuad s.out q }) := by
  intro s hs
  refine ⟨fun q' h => ?_, hs.terms⟩
  rcases mem_insertQuad.1 h with h | rfl
  · exact hs.quads q' h
  · exact hq

theorem staysIn_instDataset {env : Env IRes} (h : EnvIn K env) {ps : List (QuadPat Term)} (hp : ContainsPats K ps) :
    StaysIn K (instDataset env ps) := by
  have key : ∀ qs : List (QuadPat Term), qs ⊆ ps → StaysIn K (instDataset env qs) := by
    intro qs
    induction qs with
    | nil => intro _; exact staysIn_pure _
    | cons p qs ih =>
      intro hs
      refine staysIn_bind (staysIn_read _) fun q s s' hq => ?_
      rw [DeM.read_eq_ok] at hq
      exact staysIn_bind (staysIn_insert (instQuad_staysIn h hp (hs (by simp)) hq.1)) fun _ _ _ _ => ih fun x hx => hs (by simp [hx])
  exact key ps fun _ h => h

variable (hanon : ∀ i, K (.anon i))
include hanon

theorem staysIn_intro (env : Env IRes) (k : Nat) : StaysIn K (intro env k) := staysIn_id fun s => by rw [intro_eq]; exact ⟨rfl, rfl⟩

theorem intro_envIn {env env' : Env IRes} (h : EnvIn K env) {k : Nat} {s s' : DeState} (he : intro env k s = (.ok env', s')) :
    EnvIn K env' := by
  rw [intro_eq] at he
  simp only [Prod.mk.injEq, Out.ok.injEq] at he
  obtain ⟨rfl, -⟩ := he
  intro r hr
  rw [Env.flat, List.mem_append] at hr
  rcases hr with hr | hr
  · exact h r hr
  · obtain ⟨i, rfl, -⟩ := mem_freshList.1 hr
    exact hanon i

/-- What is assumed of the recursive call. -/
def RecStaysIn (K : IRes → Prop) (rec : Rec) : Prop := ∀ v g ref ins, (∀ r ∈ ins, K r) → StaysIn K (rec v g ref ins)

omit hanon in
theorem staysIn_subValue {rec : Rec} (hrec : RecStaysIn K rec) (graph : Option IRes) {fmt : ValueFormat Term} (hf : ContainsFmt K fmt)
    {env : Env IRes} (h : EnvIn K env) (v : Value) : StaysIn K (subValue rec graph fmt env v) := by
  refine staysIn_bind (staysIn_read _) fun ins s s' h1 => staysIn_bind (staysIn_read _) fun g _ _ _ => ?_
  rw [DeM.read_eq_ok] at h1
  exact hrec _ _ _ _ (instPatterns_staysIn h (fun p hp t e => hf t (.inl (e ▸ hp))) h1.1)

theorem staysIn_variants {rec : Rec} (hrec : RecStaysIn K rec) (graph : Option IRes) {env : Env IRes} (h : EnvIn K env) (v : Value)
    (vs : List (Variant Term)) (hv : ∀ x ∈ vs, ContainsPats K x.dataset ∧ ContainsFmt K x.value) (sel : Option (List (Quad IRes)))
    (hsel : ∀ qs, sel = some qs → ∀ q ∈ qs, q.Uses K) : StaysIn K (variants rec graph env v vs sel) := by
  induction vs generalizing sel with
  | nil =>
    cases sel with
    | none => exact staysIn_fail _
    | some quads =>
      intro s hs
      refine ⟨fun q hq => ?_, hs.terms⟩
      rcases mem_foldl_insertQuad.1 hq with h | h
      · exact hs.quads q h
      · exact hsel quads rfl q h
  | cons x vs ih =>
    rw [List.forall_mem_cons] at hv
    refine staysIn_bind (staysIn_intro hanon _ _) fun venv s s' he => ?_
    have hve := intro_envIn hanon h he
    refine staysIn_bind (staysIn_read _) fun quads s1 s1' hq => ?_
    rw [DeM.read_eq_ok] at hq
    have hquads : ∀ q ∈ quads, q.Uses K := by
      have key : ∀ (ps : List (QuadPat Term)) (qs : List (Quad IRes)), ps ⊆ x.dataset → instLocal venv ps = .ok qs →
          ∀ q ∈ qs, q.Uses K := by
        intro ps qs hs hq
        rw [instLocal, Out.mapM'_eq_ok] at hq
        induction hq with
        | nil => simp
        | cons h _ ih =>
          rw [List.forall_mem_cons]
          exact ⟨instQuad_staysIn hve hv.1.1 (hs (by simp)) h, ih fun y hy => hs (by simp [hy])⟩
      exact key _ _ (fun _ h => h) hq.1
    intro s2 hs2
    have h1 := staysIn_subValue hrec graph hv.1.2 hve v s2 hs2
    rcases hr : subValue rec graph x.value venv v s2 with ⟨a | e | _ | _, s'⟩ <;> rw [hr] at h1 <;> simp only [hr]
    · cases sel with
      | some _ => exact h1
      | none => exact ih hv.2 (some quads) (by rintro qs ⟨⟩; exact hquads) s' h1
    · exact ih hv.2 sel hsel s' h1
    · exact h1
    · exact h1

theorem staysIn_entries {rec : Rec} (hrec : RecStaysIn K rec) (graph : Option IRes) {env : Env IRes} (h : EnvIn K env)
    (fields : List (Value × Field Term)) (hf : ∀ e ∈ fields, ContainsPats K e.2.dataset ∧ ContainsFmt K e.2.value)
    (m : List (Value × Value)) : StaysIn K (entries rec graph env fields m) := by
  induction m with
  | nil => exact staysIn_pure _
  | cons e m ih =>
    obtain ⟨key, v⟩ := e
    unfold entries
    split
    · rename_i f hl
      have hm : ∃ e ∈ fields, e.2 = f := by
        simp only [lookup, Option.map_eq_some_iff] at hl
        obtain ⟨e, he, rfl⟩ := hl
        exact ⟨e, List.mem_of_find?_eq_some he, rfl⟩
      obtain ⟨e, he, rfl⟩ := hm
      refine staysIn_bind (staysIn_intro hanon _ _) fun fenv s s' hi => ?_
      have hfe := intro_envIn hanon h hi
      exact staysIn_bind (staysIn_instDataset hfe (hf e he).1) fun _ _ _ _ =>
        staysIn_bind (staysIn_subValue hrec graph (hf e he).2 hfe v) fun _ _ _ _ => ih
    · exact staysIn_fail _

omit hanon in
theorem staysIn_requireKeys (ref : Term) (m : List (Value × Value)) (fields : List (Value × Field Term)) :
    StaysIn K (requireKeys ref m fields) := by
  induction fields with
  | nil => exact staysIn_pure _
  | cons e fs ih =>
    obtain ⟨key, field⟩ := e
    unfold requireKeys
    split
    · exact staysIn_fail _
    · exact ih

theorem staysIn_items {rec : Rec} (hrec : RecStaysIn K rec) (graph : Option IRes) {env : Env IRes} (h : EnvIn K env)
    (item : ItemLayout Term) (hi : ContainsPats K item.dataset ∧ ContainsFmt K item.value) (vs : List Value) :
    StaysIn K (items rec graph env item vs) := by
  induction vs with
  | nil => exact staysIn_pure _
  | cons v vs ih =>
    refine staysIn_bind (staysIn_intro hanon _ _) fun fenv s s' he => ?_
    have hfe := intro_envIn hanon h he
    exact staysIn_bind (staysIn_instDataset hfe hi.1) fun _ _ _ _ =>
      staysIn_bind (staysIn_subValue hrec graph hi.2 hfe v) fun _ _ _ _ => ih

theorem staysIn_nodes {rec : Rec} (hrec : RecStaysIn K rec) (graph : Option IRes) {env : Env IRes} (h : EnvIn K env)
    (node : ItemLayout Term) (hi : ContainsPats K node.dataset ∧ ContainsFmt K node.value) {tail : Pattern Term}
    (ht : ContainsPat K tail) (vs : List Value) {head : IRes} (hh : K head) : StaysIn K (nodes rec graph env node tail head vs) := by
  induction vs generalizing head with
  | nil => exact staysIn_pure _
  | cons v vs ih =>
    refine staysIn_bind ?_ fun next s s' hn => ?_
    · split
      · exact staysIn_read _
      · exact staysIn_id fun _ => ⟨rfl, rfl⟩
    · have hnext : K next := by
        split at hn
        · rw [DeM.read_eq_ok] at hn
          exact instPattern_staysIn h ht hn.1
        · simp only [newResource, Prod.mk.injEq, Out.ok.injEq] at hn
          exact hn.1 ▸ hanon _
      refine staysIn_bind (staysIn_intro hanon _ _) fun fenv s1 s1' he => ?_
      have hfe := intro_envIn hanon (env := env.bind [head, next]) (fun r hr => by
        simp only [Env.bind, Env.flat, List.mem_append, List.mem_cons, List.not_mem_nil, or_false] at hr
        rcases hr with hr | rfl | rfl
        · exact h r hr
        · exact hh
        · exact hnext) he
      exact staysIn_bind (staysIn_instDataset hfe hi.1) fun _ _ _ _ =>
        staysIn_bind (staysIn_subValue hrec graph hi.2 hfe v) fun _ _ _ _ => ih hnext

theorem staysIn_sizedItems {rec : Rec} (hrec : RecStaysIn K rec) (graph : Option IRes) {env : Env IRes} (h : EnvIn K env)
    (vs : List Value) (is : List (ItemLayout Term)) (hi : ∀ i ∈ is, ContainsPats K i.dataset ∧ ContainsFmt K i.value) :
    StaysIn K (sizedItems rec graph env vs is) := by
  induction vs generalizing is with
  | nil =>
    cases is
    · exact staysIn_pure _
    · exact staysIn_fail _
  | cons v vs ih =>
    cases is with
    | nil => exact staysIn_fail _
    | cons item is =>
      rw [List.forall_mem_cons] at hi
      refine staysIn_bind (staysIn_intro hanon _ _) fun fenv s s' he => ?_
      have hfe := intro_envIn hanon h he
      exact staysIn_bind (staysIn_instDataset hfe hi.1.1) fun _ _ _ _ =>
        staysIn_bind (staysIn_subValue hrec graph hi.1.2 hfe v) fun _ _ _ _ => ih is hi.2

theorem staysIn_data {inputs : List IRes} (hin : ∀ r ∈ inputs, K r) (l : DataLayout Term)
    (hl : ∀ t, PatsHaveConstant l.dataset t ∨ l.resource = .res t ∨ l.datatype = t → K (.term t))
    (lit : List String → Out DeError RdfLit) : StaysIn K (data inputs l lit) := by
  refine staysIn_bind (staysIn_intro hanon _ _) fun env s s' he => ?_
  have hfe := intro_envIn hanon (env := .root inputs) hin he
  refine staysIn_bind (staysIn_instDataset hfe fun t h => hl t (.inl h)) fun _ _ _ _ =>
    staysIn_bind (staysIn_read _) fun r s1 s1' h1 => staysIn_bind (staysIn_read _) fun lit _ _ _ => ?_
  rw [DeM.read_eq_ok] at h1
  exact staysIn_assign (instPattern_staysIn hfe (fun t e => hl t (.inr (.inl e))) h1.1) trivial

theorem staysIn_layout (c : DeCtx) {rec : Rec} (hrec : RecStaysIn K rec) (v : Value) (graph : Option IRes) (ref : Term)
    {inputs : List IRes} (hin : ∀ r ∈ inputs, K r) (l : Layout Term) (hl : Contains K l) :
    StaysIn K (layout c rec v graph ref inputs l) := by
  have hroot : EnvIn K (.root inputs) := hin
  have step : ∀ {α : Type} (k : Nat) (f : Env IRes → DeM α), (∀ env, EnvIn K env → StaysIn K (f env)) →
      StaysIn K ((intro (.root inputs) k).bind f) := fun k f hf =>
    staysIn_bind (staysIn_intro hanon _ _) fun env s s' he => hf env (intro_envIn hanon hroot he)
  cases l with
  | never => exact staysIn_fail _
  | always => exact staysIn_pure _
  | unit l =>
    simp only [layout]
    split
    · exact step _ _ fun env he => staysIn_instDataset he hl
    · exact staysIn_fail _
  | boolean l =>
    simp only [layout]
    split
    · exact staysIn_data hanon hin _ hl _
    · exact staysIn_fail _
  | number l =>
    simp only [layout]
    split
    · exact staysIn_data hanon hin _ hl _
    · exact staysIn_fail _
  | byteString l =>
    simp only [layout]
    split
    · exact staysIn_data hanon hin _ hl _
    · exact staysIn_fail _
  | textString l =>
    simp only [layout]
    split
    · exact staysIn_data hanon hin _ hl _
    · exact staysIn_fail _
  | id l =>
    simp only [layout]
    split
    · refine step _ _ fun env he => staysIn_bind (staysIn_instDataset he fun t h => hl t (.inl h)) fun _ _ _ _ =>
        staysIn_bind (staysIn_read _) fun r s1 s1' h1 => ?_
      rw [DeM.read_eq_ok] at h1
      split
      · exact staysIn_assign (instPattern_staysIn he (fun t e => hl t (.inr e)) h1.1) trivial
      · exact staysIn_fail _
    · exact staysIn_fail _
  | sum l =>
    exact step _ _ fun env he => staysIn_bind (staysIn_instDataset he fun t h => hl t (.inl h)) fun _ _ _ _ =>
      staysIn_variants hanon hrec graph he v _ (fun x hx => ⟨fun t h => hl t (.inr ⟨x, hx, .inl h⟩), fun t h => hl t (.inr ⟨x, hx, .inr h⟩)⟩)
        none (by simp)
  | product l =>
    simp only [layout]
    split
    · exact step _ _ fun env he => staysIn_bind (staysIn_instDataset he fun t h => hl t (.inl h)) fun _ _ _ _ =>
        staysIn_bind (staysIn_entries hanon hrec graph he _
          (fun x hx => ⟨fun t h => hl t (.inr ⟨x, hx, .inl h⟩), fun t h => hl t (.inr ⟨x, hx, .inr h⟩)⟩) _) fun _ _ _ _ =>
        staysIn_requireKeys _ _ _
    · exact staysIn_fail _
  | unordered l =>
    simp only [layout]
    split
    · exact step _ _ fun env he => staysIn_bind (staysIn_instDataset he fun t h => hl t (.inl h)) fun _ _ _ _ =>
        staysIn_items hanon hrec graph he _ ⟨fun t h => hl t (.inr (.inl h)), fun t h => hl t (.inr (.inr h))⟩ _
    · exact staysIn_fail _
  | ordered l =>
    simp only [layout]
    split
    · refine step _ _ fun env he => staysIn_bind (staysIn_instDataset he fun t h => hl t (.inl h)) fun _ _ _ _ =>
        staysIn_bind (staysIn_read _) fun head s1 s1' h1 => ?_
      rw [DeM.read_eq_ok] at h1
      exact staysIn_nodes hanon hrec graph he _
        ⟨fun t h => hl t (.inr (.inr (.inr (.inl h)))), fun t h => hl t (.inr (.inr (.inr (.inr h))))⟩
        (fun t e => hl t (.inr (.inr (.inl e)))) _ (instPattern_staysIn he (fun t e => hl t (.inr (.inl e))) h1.1)
    · exact staysIn_fail _
  | sized l =>
    simp only [layout]
    split
    · exact step _ _ fun env he => staysIn_bind (staysIn_instDataset he fun t h => hl t (.inl h)) fun _ _ _ _ =>
        staysIn_sizedItems hanon hrec graph he _ _
          (fun x hx => ⟨fun t h => hl t (.inr ⟨x, hx, .inl h⟩), fun t h => hl t (.inr ⟨x, hx, .inr h⟩)⟩)
    · exact staysIn_fail _

theorem staysIn_dehydrateWith (c : DeCtx) (hc : ∀ t, c.reg.HasConstant t → K (.term t)) (n : Nat) : RecStaysIn K (dehydrateWith c n) := by
  induction n with
  | zero => intro v g ref ins _ s hs; exact hs
  | succ n ih =>
    intro v g ref ins hin
    unfold dehydrateWith
    split
    · exact staysIn_fail _
    · rename_i l hl
      split
      · exact staysIn_fail _
      · exact staysIn_layout hanon c ih v g ref hin _ fun t h => hc t ⟨ref, l, hl, h⟩

end Dehydrate

end Verif
