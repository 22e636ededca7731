import Verif.DetOps
import Verif.AutomatonSpec

/-! # Deterministic automata: lemmas -/

set_option linter.unusedSectionVars false
set_option linter.unusedSimpArgs false

namespace Verif

namespace DetAut

variable {Q L : Type _} [DecidableEq Q] [DecidableEq L]

theorem mem_triples {t : List (Q × List (L × Q))} {q q' : Q} {l : L} :
    (q, l, q') ∈ triples t ↔ ∃ ts, (q, ts) ∈ t ∧ (l, q') ∈ ts := by
  unfold triples
  rw [List.mem_flatMap]
  constructor
  · rintro ⟨e, he, h⟩
    obtain ⟨x, hx, h⟩ := List.mem_map.1 h
    simp only [Prod.mk.injEq] at h
    obtain ⟨rfl, rfl, rfl⟩ := h
    exact ⟨e.2, he, hx⟩
  · rintro ⟨ts, h1, h2⟩
    exact ⟨_, h1, List.mem_map.2 ⟨_, h2, rfl⟩⟩

/-- The target of a transition. -/
def lookup (t : List (Q × List (L × Q))) (q : Q) (l : L) : Option Q := (AMap.get t q).bind fun row => AMap.get row l

theorem lookup_iff {t : List (Q × List (L × Q))} (h : TableWF t) {q q' : Q} {l : L} :
    lookup t q l = some q' ↔ (q, l, q') ∈ triples t := by
  rw [mem_triples]
  unfold lookup
  rw [Option.bind_eq_some_iff]
  constructor
  · rintro ⟨ts, h1, h2⟩
    exact ⟨ts, AMap.mem_of_get h1, AMap.mem_of_get h2⟩
  · rintro ⟨ts, h1, h2⟩
    exact ⟨ts, AMap.get_of_mem h.1 h1, AMap.get_of_mem (h.2 _ h1) h2⟩

theorem triples_functional {t : List (Q × List (L × Q))} (h : TableWF t) {q q' q'' : Q} {l : L}
    (h1 : (q, l, q') ∈ triples t) (h2 : (q, l, q'') ∈ triples t) : q' = q'' := by
  rw [← lookup_iff h] at h1 h2
  rw [h1] at h2
  exact Option.some.inj h2

theorem mem_modify {K V : Type _} [DecidableEq K] {m : List (K × V)} {k : K} {d : V} {f : V → V} {e : K × V}
    (h : e ∈ AMap.modify m k d f) : e ∈ m ∨ e = (k, f d) ∨ ∃ v, (k, v) ∈ m ∧ e = (k, f v) := by
  induction m with
  | nil => simp only [AMap.modify, List.mem_singleton] at h; exact .inr (.inl h)
  | cons x m ih =>
    obtain ⟨k', v⟩ := x
    unfold AMap.modify at h
    split at h
    · rename_i hk
      subst hk
      rcases List.mem_cons.1 h with rfl | h
      · exact .inr (.inr ⟨v, List.mem_cons_self .., rfl⟩)
      · exact .inl (List.mem_cons_of_mem _ h)
    · rcases List.mem_cons.1 h with rfl | h
      · exact .inl (List.mem_cons_self ..)
      · rcases ih h with h | h | ⟨v, h, h'⟩
        · exact .inl (List.mem_cons_of_mem _ h)
        · exact .inr (.inl h)
        · exact .inr (.inr ⟨v, List.mem_cons_of_mem _ h, h'⟩)

theorem tableWF_addTo {t : List (Q × List (L × Q))} (h : TableWF t) (s : Q) (l : L) (q : Q) : TableWF (addTo t s l q) := by
  refine ⟨AMap.unique_modify h.1 _ _ _, fun e he => ?_⟩
  rcases mem_modify he with he | rfl | ⟨v, hv, rfl⟩
  · exact h.2 e he
  · exact AMap.unique_insert (show AMap.Unique [] from List.nodup_nil) _ _
  · exact AMap.unique_insert (h.2 _ hv) _ _

theorem lookup_addTo (t : List (Q × List (L × Q))) (s : Q) (l : L) (q : Q) (s' : Q) (l' : L) :
    lookup (addTo t s l q) s' l' = if s' = s ∧ l' = l then some q else lookup t s' l' := by
  unfold lookup addTo
  rw [AMap.get_modify]
  by_cases hs : s' = s
  · subst hs
    simp only [if_true, Option.bind_some, AMap.get_insert, true_and]
    split
    · rfl
    · cases AMap.get t s' <;> rfl
  · simp [hs]

/-- Adding the transitions of a list. -/
theorem lookup_foldl {ts : List (Q × L × Q)} (hf : ∀ x ∈ ts, ∀ y ∈ ts, x.1 = y.1 → x.2.1 = y.2.1 → x = y)
    (t : List (Q × List (L × Q))) (h : TableWF t) :
    TableWF (ts.foldl (fun r x => addTo r x.1 x.2.1 x.2.2) t) ∧ ∀ s l q,
      lookup (ts.foldl (fun r x => addTo r x.1 x.2.1 x.2.2) t) s l = some q ↔
        (s, l, q) ∈ ts ∨ ((∀ q', (s, l, q') ∉ ts) ∧ lookup t s l = some q) := by
  induction ts generalizing t with
  | nil => exact ⟨h, by simp⟩
  | cons x ts ih =>
    obtain ⟨xs, xl, xq⟩ := x
    obtain ⟨h1, h2⟩ := ih (fun x hx y hy => hf x (List.mem_cons_of_mem _ hx) y (List.mem_cons_of_mem _ hy))
      (addTo t xs xl xq) (tableWF_addTo h _ _ _)
    refine ⟨h1, fun s l q => ?_⟩
    rw [List.foldl_cons, h2, lookup_addTo]
    by_cases hx : s = xs ∧ l = xl
    · obtain ⟨rfl, rfl⟩ := hx
      simp only [and_self, if_true, List.mem_cons, Prod.mk.injEq, true_and, Option.some.injEq, not_or]
      constructor
      · rintro (h | ⟨-, rfl⟩)
        · exact .inl (.inr h)
        · exact .inl (.inl rfl)
      · rintro ((rfl | h) | ⟨h, -⟩)
        · by_cases hex : ∃ q', (s, l, q') ∈ ts
          · obtain ⟨q', hq'⟩ := hex
            have := hf _ (List.mem_cons_self ..) _ (List.mem_cons_of_mem _ hq') rfl rfl
            simp only [Prod.mk.injEq, true_and] at this
            subst this
            exact .inl hq'
          · exact .inr ⟨fun q' hq' => hex ⟨q', hq'⟩, rfl⟩
        · exact .inl h
        · exact absurd rfl (h xq).1
    · rw [if_neg hx]
      have hne : ∀ q', ¬ (s, l, q') = (xs, xl, xq) := by
        intro q' he
        simp only [Prod.mk.injEq] at he
        exact hx ⟨he.1, he.2.1⟩
      simp only [List.mem_cons, hne, false_or]

/-- Two tables with the same transitions give the same paths. -/
theorem Path.congr {a b : DetAut Q CharRange} (h : ∀ x, x ∈ triples a.transitions → x ∈ triples b.transitions) {q q' : Q}
    {w : List Nat} (hp : a.Path q w q') : b.Path q w q' := by
  induction hp with
  | nil => exact .nil _
  | cons h1 h2 h3 h4 _ ih =>
    obtain ⟨ts, h5, h6⟩ := mem_triples.1 (h _ (mem_triples.2 ⟨_, h1, h2⟩))
    exact .cons h5 h6 h3 h4 ih

theorem accepts_congr {a b : DetAut Q CharRange} (hi : a.initial = b.initial) (hf : ∀ q, q ∈ a.finals ↔ q ∈ b.finals)
    (h : ∀ x, x ∈ triples a.transitions ↔ x ∈ triples b.transitions) (w : List Nat) : a.Accepts w ↔ b.Accepts w := by
  constructor
  · rintro ⟨q, hq, hp⟩
    exact ⟨q, (hf q).1 hq, hi ▸ hp.congr fun x => (h x).1⟩
  · rintro ⟨q, hq, hp⟩
    exact ⟨q, (hf q).2 hq, hi ▸ hp.congr fun x => (h x).2⟩

/-! ## Serialization -/

theorem deserialize_serialize {t : List (Q × List (L × Q))} (h : TableWF t) :
    TableWF (deserialize (serialize t)) ∧ ∀ x, x ∈ triples (deserialize (serialize t)) ↔ x ∈ triples t := by
  obtain ⟨h1, h2⟩ := lookup_foldl (ts := triples t) (by
    rintro ⟨s, l, q⟩ hx ⟨s', l', q'⟩ hy h3 h4
    dsimp only at h3 h4
    subst h3 h4
    rw [triples_functional h hx hy]) [] ⟨List.nodup_nil, by simp⟩
  refine ⟨h1, fun x => ?_⟩
  obtain ⟨s, l, q⟩ := x
  unfold deserialize serialize
  rw [← lookup_iff h1, h2]
  simp [lookup, AMap.get]

/-! ## Renaming -/

section Map

variable {P M τ : Type _} [DecidableEq P] [DecidableEq M] {f : τ → Q → P × τ} {g : L → M}

theorem cached_spec (s : List (Q × P) × τ) (q : Q) :
    AMap.get (cached f s q).2.1 q = some (cached f s q).1 ∧
    (∀ q' p, AMap.get s.1 q' = some p → AMap.get (cached f s q).2.1 q' = some p) := by
  unfold cached
  cases h : AMap.get s.1 q with
  | some p => exact ⟨h, fun _ _ h => h⟩
  | none =>
    simp only [AMap.get_insert, if_true, true_and]
    intro q' p hp
    rw [if_neg]
    · exact hp
    · rintro rfl
      rw [h] at hp
      cases hp

/-- `s'` extends `s`. -/
def Ext (s s' : List (Q × P) × τ) : Prop := ∀ q p, AMap.get s.1 q = some p → AMap.get s'.1 q = some p

theorem Ext.rfl {s : List (Q × P) × τ} : Ext s s := fun _ _ h => h

theorem Ext.trans {s s' s'' : List (Q × P) × τ} (h : Ext s s') (h' : Ext s' s'') : Ext s s'' := fun q p hp => h' q p (h q p hp)

theorem mapTriples_spec (ts : List (Q × L × Q)) (r : DetAut P M) (s : List (Q × P) × τ) :
    let out := mapTriples f g ts r s
    Ext s out.2 ∧ (∀ x ∈ ts, (∃ p, AMap.get out.2.1 x.1 = some p) ∧ ∃ p, AMap.get out.2.1 x.2.2 = some p) ∧
    out.1.initial = r.initial ∧ out.1.finals = r.finals ∧
    ∀ ρ : Q → P, (∀ q p, AMap.get out.2.1 q = some p → ρ q = p) →
      out.1.transitions = (ts.map fun x => (ρ x.1, g x.2.1, ρ x.2.2)).foldl (fun r x => addTo r x.1 x.2.1 x.2.2)
        r.transitions := by
  induction ts generalizing r s with
  | nil => exact ⟨Ext.rfl, by simp, rfl, rfl, fun _ _ => rfl⟩
  | cons x ts ih =>
    obtain ⟨xs, xl, xq⟩ := x
    obtain ⟨hs1, hs2⟩ := cached_spec (f := f) s xs
    obtain ⟨ht1, ht2⟩ := cached_spec (f := f) (cached f s xs).2 xq
    obtain ⟨h1, h2, h3, h4, h5⟩ := ih (r.add (cached f s xs).1 (g xl) (cached f (cached f s xs).2 xq).1)
      (cached f (cached f s xs).2 xq).2
    refine ⟨Ext.trans hs2 (Ext.trans ht2 h1), ?_, h3, h4, fun ρ hρ => ?_⟩
    · rw [List.forall_mem_cons]
      exact ⟨⟨⟨_, h1 _ _ (ht2 _ _ hs1)⟩, ⟨_, h1 _ _ ht1⟩⟩, h2⟩
    · refine (h5 ρ hρ).trans ?_
      rw [List.map_cons, List.foldl_cons, hρ _ _ (h1 _ _ (ht2 _ _ hs1)), hρ _ _ (h1 _ _ ht1)]
      rfl

theorem mem_addFinal (a : DetAut Q L) (q p : Q) : p ∈ (a.addFinal q).finals ↔ p = q ∨ p ∈ a.finals := by
  unfold addFinal
  split
  · rename_i h
    constructor
    · exact .inr
    · rintro (rfl | h')
      · exact h
      · exact h'
  · simp only [List.mem_append, List.mem_singleton]
    tauto

theorem addFinal_initial (a : DetAut Q L) (q : Q) : (a.addFinal q).initial = a.initial := by
  unfold addFinal; split <;> rfl

theorem addFinal_transitions (a : DetAut Q L) (q : Q) : (a.addFinal q).transitions = a.transitions := by
  unfold addFinal; split <;> rfl

theorem mapFinals_spec (qs : List Q) (r : DetAut P M) (s : List (Q × P) × τ) :
    let out := mapFinals f qs r s
    Ext s out.2 ∧ (∀ q ∈ qs, ∃ p, AMap.get out.2.1 q = some p) ∧ out.1.initial = r.initial ∧
    out.1.transitions = r.transitions ∧
    ∀ ρ : Q → P, (∀ q p, AMap.get out.2.1 q = some p → ρ q = p) →
      ∀ p, p ∈ out.1.finals ↔ p ∈ r.finals ∨ ∃ q ∈ qs, p = ρ q := by
  induction qs generalizing r s with
  | nil => exact ⟨Ext.rfl, by simp, rfl, rfl, fun _ _ => by simp [mapFinals]⟩
  | cons q qs ih =>
    obtain ⟨hs1, hs2⟩ := cached_spec (f := f) s q
    obtain ⟨h1, h2, h3, h4, h5⟩ := ih (r.addFinal (cached f s q).1) (cached f s q).2
    refine ⟨Ext.trans hs2 h1, ?_, ?_, ?_, fun ρ hρ p => ?_⟩
    · rw [List.forall_mem_cons]
      exact ⟨⟨_, h1 _ _ hs1⟩, h2⟩
    · exact h3.trans (addFinal_initial _ _)
    · exact h4.trans (addFinal_transitions _ _)
    · refine (h5 ρ hρ p).trans ?_
      rw [mem_addFinal]
      simp only [List.mem_cons, exists_eq_or_imp, hρ _ _ (h1 _ _ hs1)]
      tauto

/-- The states that are given a name. -/
def Named (a : DetAut Q L) (q : Q) : Prop :=
  q = a.initial ∨ q ∈ a.finals ∨ ∃ x ∈ triples a.transitions, q = x.1 ∨ q = x.2.2

/-- What `map` computes, in terms of the names. -/
theorem mapNames_spec (a : DetAut Q L) (t : τ) (ρ : Q → P)
    (hρ : ∀ q p, AMap.get (a.mapNames f t g).2 q = some p → ρ q = p) :
    (∀ q, a.Named q → ∃ p, AMap.get (a.mapNames f t g).2 q = some p) ∧
    (a.map f t g).initial = ρ a.initial ∧ (∀ p, p ∈ (a.map f t g).finals ↔ ∃ q ∈ a.finals, p = ρ q) ∧
    (a.map f t g).transitions = ((triples a.transitions).map fun x => (ρ x.1, g x.2.1, ρ x.2.2)).foldl
      (fun r x => addTo r x.1 x.2.1 x.2.2) [] := by
  unfold map
  obtain ⟨h1, -⟩ := cached_spec (f := f) ([], t) a.initial
  obtain ⟨m1, m2, m3, m4, m5⟩ := mapTriples_spec (f := f) (g := g) (triples a.transitions) (new (cached f ([], t) a.initial).1)
    (cached f ([], t) a.initial).2
  obtain ⟨f1, f2, f3, f4, f5⟩ := mapFinals_spec (f := f) a.finals
    (mapTriples f g (triples a.transitions) (new (cached f ([], t) a.initial).1) (cached f ([], t) a.initial).2).1
    (mapTriples f g (triples a.transitions) (new (cached f ([], t) a.initial).1) (cached f ([], t) a.initial).2).2
  refine ⟨?_, ?_, ?_, ?_⟩
  · rintro q (rfl | hq | ⟨x, hx, rfl | rfl⟩)
    · exact ⟨_, f1 _ _ (m1 _ _ h1)⟩
    · exact f2 q hq
    · obtain ⟨p, hp⟩ := (m2 x hx).1; exact ⟨p, f1 _ _ hp⟩
    · obtain ⟨p, hp⟩ := (m2 x hx).2; exact ⟨p, f1 _ _ hp⟩
  · refine (f3.trans m3).trans ?_
    exact (hρ _ _ (f1 _ _ (m1 _ _ h1))).symm
  · intro p
    refine (f5 ρ hρ p).trans ?_
    rw [m4]
    simp [new]
  · refine f4.trans ?_
    exact m5 ρ fun q p hq => hρ q p (f1 q p hq)

theorem cached_inv (I : List (Q × P) × τ → Prop) (hI : ∀ s q, I s → I (cached f s q).2) (a : DetAut Q L) (t : τ)
    (h0 : I ([], t)) : ∃ t', I ((a.mapNames f t g).2, t') := by
  have h1 : ∀ ts (r : DetAut P M) s, I s → I (mapTriples f g ts r s).2 := by
    intro ts
    induction ts with
    | nil => exact fun _ _ h => h
    | cons x ts ih =>
      intro r s h
      exact ih _ _ (hI _ _ (hI _ _ h))
  have h2 : ∀ qs (r : DetAut P M) s, I s → I (mapFinals f qs r s).2 := by
    intro ts
    induction ts with
    | nil => exact fun _ _ h => h
    | cons x ts ih =>
      intro r s h
      exact ih _ _ (hI _ _ h)
  exact ⟨_, h2 _ _ _ (h1 _ _ _ (hI _ _ h0))⟩

/-- Renaming states with distinct names preserves the language. -/
theorem map_accepts {f : τ → Q → P × τ} (a : DetAut Q CharRange) (ha : TableWF a.transitions) (t : τ)
    (hinj : ∀ q q' p, AMap.get (a.mapNames f t id).2 q = some p → AMap.get (a.mapNames f t id).2 q' = some p → q = q')
    (w : List Nat) : (a.map f t id).Accepts w ↔ a.Accepts w := by
  let ρ : Q → P := fun q => (AMap.get (a.mapNames f t id).2 q).getD (a.map f t id).initial
  have hρ : ∀ q p, AMap.get (a.mapNames f t id).2 q = some p → ρ q = p := by
    intro q p h
    simp only [ρ, h, Option.getD_some]
  obtain ⟨h1, h2, h3, h4⟩ := mapNames_spec a t ρ hρ
  have hinj' : ∀ q q', a.Named q → a.Named q' → ρ q = ρ q' → q = q' := by
    intro q q' hq hq' he
    obtain ⟨p, hp⟩ := h1 q hq
    obtain ⟨p', hp'⟩ := h1 q' hq'
    rw [hρ _ _ hp, hρ _ _ hp'] at he
    subst he
    exact hinj q q' p hp hp'
  have hfun : ∀ x ∈ (triples a.transitions).map (fun x => (ρ x.1, id x.2.1, ρ x.2.2)),
      ∀ y ∈ (triples a.transitions).map (fun x => (ρ x.1, id x.2.1, ρ x.2.2)), x.1 = y.1 → x.2.1 = y.2.1 → x = y := by
    intro x hx y hy h5 h6
    obtain ⟨⟨xs, xl, xq⟩, hx', rfl⟩ := List.mem_map.1 hx
    obtain ⟨⟨ys, yl, yq⟩, hy', rfl⟩ := List.mem_map.1 hy
    dsimp only [id] at h5 h6 ⊢
    have he := hinj' xs ys (.inr (.inr ⟨(xs, xl, xq), hx', .inl rfl⟩)) (.inr (.inr ⟨(ys, yl, yq), hy', .inl rfl⟩)) h5
    clear hx hy
    subst h6 he
    rw [triples_functional ha hx' hy']
  obtain ⟨h5, h6⟩ := lookup_foldl hfun [] ⟨List.nodup_nil, by simp⟩
  have hedge : ∀ p l p', (p, l, p') ∈ triples (a.map f t id).transitions ↔
      ∃ q q', (q, l, q') ∈ triples a.transitions ∧ p = ρ q ∧ p' = ρ q' := by
    intro p l p'
    rw [h4, ← lookup_iff h5, h6]
    simp only [lookup, AMap.get, Option.bind_none, reduceCtorEq, and_false, or_false, List.mem_map, Prod.mk.injEq, id]
    constructor
    · rintro ⟨⟨s, l, q⟩, hx, rfl, rfl, rfl⟩; exact ⟨s, q, hx, rfl, rfl⟩
    · rintro ⟨q, q', hx, rfl, rfl⟩; exact ⟨_, hx, rfl, rfl, rfl⟩
  constructor
  · rintro ⟨p, hp, hpath⟩
    rw [h3] at hp
    obtain ⟨qf, hqf, rfl⟩ := hp
    have hback : ∀ p w p', (a.map f t id).Path p w p' → ∀ q, a.Named q → p = ρ q → ∃ q', a.Named q' ∧ p' = ρ q' ∧ a.Path q w q' := by
      intro p w p' hpath
      induction hpath with
      | nil => exact fun q hq he => ⟨q, hq, he, .nil _⟩
      | cons h7 h8 h9 h10 _ ih =>
        intro q hq he
        obtain ⟨s, s', h11, h12, h13⟩ := (hedge _ _ _).1 (mem_triples.2 ⟨_, h7, h8⟩)
        have hs : s = q := hinj' _ _ (.inr (.inr ⟨_, h11, .inl rfl⟩)) hq (h12.symm.trans he)
        subst hs
        obtain ⟨q', h14, h15, h16⟩ := ih s' (.inr (.inr ⟨_, h11, .inr rfl⟩)) h13
        obtain ⟨ts, h17, h18⟩ := mem_triples.1 h11
        exact ⟨q', h14, h15, .cons h17 h18 h9 h10 h16⟩
    obtain ⟨q', h7, h8, h9⟩ := hback _ _ _ hpath a.initial (.inl rfl) h2
    have := hinj' _ _ (.inr (.inl hqf)) h7 h8
    subst this
    exact ⟨_, hqf, h9⟩
  · rintro ⟨q, hq, hpath⟩
    refine ⟨ρ q, (h3 _).2 ⟨q, hq, rfl⟩, ?_⟩
    rw [h2]
    clear hq
    generalize a.initial = i at hpath
    induction hpath with
    | nil => exact .nil _
    | cons h7 h8 h9 h10 _ ih =>
      obtain ⟨ts, h11, h12⟩ := mem_triples.1 ((hedge _ _ _).2 ⟨_, _, mem_triples.2 ⟨_, h7, h8⟩, rfl, rfl⟩)
      exact .cons h11 h12 h9 h10 ih

/-- A pure, injective function. -/
theorem map_injective (a : DetAut Q CharRange) (f : Q → P) (hf : ∀ q q', f q = f q' → q = q') (q q' : Q) (p : P)
    (h : AMap.get (a.mapNames (fun (_ : Unit) q => (f q, ())) () (id : CharRange → CharRange)).2 q = some p)
    (h' : AMap.get (a.mapNames (fun (_ : Unit) q => (f q, ())) () (id : CharRange → CharRange)).2 q' = some p) : q = q' := by
  obtain ⟨_, hI⟩ := cached_inv (f := fun (_ : Unit) q => (f q, ())) (g := (id : CharRange → CharRange))
    (fun s => ∀ q p, AMap.get s.1 q = some p → p = f q) (by
      intro s q hs q' p hp
      unfold cached at hp
      cases hg : AMap.get s.1 q with
      | some p' => simp only [hg] at hp; exact hs q' p hp
      | none =>
        simp only [hg, AMap.get_insert] at hp
        split at hp
        · rename_i he
          cases hp
          rw [he]
        · exact hs q' p hp) a () (by simp [AMap.get])
  have e1 := hI q p h
  have e2 := hI q' p h'
  exact hf _ _ (e1.symm.trans e2)

/-- The numbering of states with a counter. -/
theorem map_counter (a : DetAut Q CharRange) (q q' : Q) (p : Nat)
    (h : AMap.get (a.mapNames (fun (n : Nat) (_ : Q) => (n, n + 1)) 0 (id : CharRange → CharRange)).2 q = some p)
    (h' : AMap.get (a.mapNames (fun (n : Nat) (_ : Q) => (n, n + 1)) 0 (id : CharRange → CharRange)).2 q' = some p) : q = q' := by
  obtain ⟨_, hI, _⟩ := cached_inv (f := fun (n : Nat) (_ : Q) => (n, n + 1)) (g := (id : CharRange → CharRange))
    (fun s => (∀ q q' p, AMap.get s.1 q = some p → AMap.get s.1 q' = some p → q = q') ∧
      ∀ q p, AMap.get s.1 q = some p → p < s.2) (by
      rintro s q ⟨hs1, hs2⟩
      unfold cached
      cases hg : AMap.get s.1 q with
      | some p' => exact ⟨hs1, hs2⟩
      | none =>
        refine ⟨fun x x' p hx hx' => ?_, fun x p hx => ?_⟩
        · simp only [AMap.get_insert] at hx hx'
          split at hx
          · rename_i he
            cases hx
            split at hx'
            · rename_i he'
              rw [he, he']
            · exact absurd (hs2 _ _ hx') (Nat.lt_irrefl _)
          · split at hx'
            · cases hx'
              exact absurd (hs2 _ _ hx) (Nat.lt_irrefl _)
            · exact hs1 _ _ _ hx hx'
        · simp only [AMap.get_insert] at hx ⊢
          split at hx
          · cases hx; exact Nat.lt_succ_self _
          · exact Nat.lt_succ_of_lt (hs2 _ _ hx)) a 0 ⟨by simp [AMap.get], by simp [AMap.get]⟩
  exact hI q q' p h h'

end Map

end DetAut

end Verif
