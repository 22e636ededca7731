import Verif.DetLemmas
import Mathlib.Logic.Relation

/-! # Deterministic automata: product and reachability -/

set_option linter.unusedSectionVars false
set_option linter.unusedSimpArgs false

namespace Verif

namespace DetAut

variable {Q L : Type _} [DecidableEq Q] [DecidableEq L]

theorem mem_row {a : DetAut Q L} (h : TableWF a.transitions) {q q' : Q} {l : L} :
    (l, q') ∈ a.row q ↔ ∃ ts, (q, ts) ∈ a.transitions ∧ (l, q') ∈ ts := by
  unfold row
  constructor
  · intro hm
    cases hg : AMap.get a.transitions q with
    | none => simp [hg] at hm
    | some ts => rw [hg] at hm; exact ⟨ts, AMap.mem_of_get hg, hm⟩
  · rintro ⟨ts, h1, h2⟩
    rw [AMap.get_of_mem h.1 h1]
    exact h2

/-! ## Product -/

section Product

variable {R S : Type _} [DecidableEq R] [DecidableEq S]
variable {a : DetAut Q CharRange} {b : DetAut R CharRange} {f : Q → R → S} {g : CharRange → CharRange → Option CharRange}

theorem mem_productEdges {p : Q × R} {t : CharRange} {x : Q × R} :
    (t, x) ∈ a.productEdges b g p ↔ ∃ r s, (r, x.1) ∈ a.row p.1 ∧ (s, x.2) ∈ b.row p.2 ∧ g r s = some t := by
  unfold productEdges
  rw [List.mem_flatMap]
  constructor
  · rintro ⟨⟨r, q⟩, h1, h2⟩
    obtain ⟨⟨s, q'⟩, h3, h4⟩ := List.mem_filterMap.1 h2
    rw [Option.map_eq_some_iff] at h4
    obtain ⟨l, h5, h6⟩ := h4
    cases h6
    exact ⟨r, s, h1, h3, h5⟩
  · rintro ⟨r, s, h1, h2, h3⟩
    refine ⟨_, h1, List.mem_filterMap.2 ⟨_, h2, ?_⟩⟩
    simp [h3]

theorem row_inj (hd : a.Deterministic) (ha : TableWF a.transitions) {q x y : Q} {r s : CharRange} {c : Nat}
    (h1 : (r, x) ∈ a.row q) (h2 : (s, y) ∈ a.row q) (h3 : r.Mem c) (h4 : s.Mem c) : r = s ∧ x = y := by
  obtain ⟨ts, h5, h6⟩ := (mem_row ha).1 h1
  obtain ⟨ts', h7, h8⟩ := (mem_row ha).1 h2
  have : ts = ts' := by
    have e1 := AMap.get_of_mem ha.1 h5
    have e2 := AMap.get_of_mem ha.1 h7
    exact Option.some.inj (e1.symm.trans e2)
  subst this
  have := hd.2 _ h5 _ h6 _ h8 c h3 h4
  exact Prod.mk.inj this

theorem mem_foldl_insert {K V : Type _} [DecidableEq K] (es : List (K × V)) (m : List (K × V)) (hu : AMap.Unique m)
    (hf : ∀ x ∈ es, ∀ y ∈ es, x.1 = y.1 → x = y) (k : K) (v : V) :
    AMap.Unique (es.foldl (fun m e => AMap.insert m e.1 e.2) m) ∧
    (AMap.get (es.foldl (fun m e => AMap.insert m e.1 e.2) m) k = some v ↔
      (k, v) ∈ es ∨ ((∀ v', (k, v') ∉ es) ∧ AMap.get m k = some v)) := by
  induction es generalizing m with
  | nil => exact ⟨hu, by simp⟩
  | cons e es ih =>
    obtain ⟨k', v'⟩ := e
    obtain ⟨h1, h2⟩ := ih (AMap.insert m k' v') (AMap.unique_insert hu _ _)
      (fun x hx y hy => hf x (List.mem_cons_of_mem _ hx) y (List.mem_cons_of_mem _ hy))
    refine ⟨h1, ?_⟩
    rw [List.foldl_cons, h2, AMap.get_insert]
    by_cases hk : k = k'
    · subst hk
      simp only [if_true, List.mem_cons, Prod.mk.injEq, true_and, Option.some.injEq]
      constructor
      · rintro (h | ⟨-, rfl⟩)
        · exact .inl (.inr h)
        · exact .inl (.inl rfl)
      · rintro ((rfl | h) | ⟨h, -⟩)
        · by_cases hex : ∃ v', (k, v') ∈ es
          · obtain ⟨v', hv'⟩ := hex
            have := hf _ (List.mem_cons_self ..) _ (List.mem_cons_of_mem _ hv') rfl
            cases this
            exact .inl hv'
          · exact .inr ⟨fun v' h => hex ⟨v', h⟩, rfl⟩
        · exact .inl h
        · exact absurd (Or.inl rfl) (h v')
    · simp [hk]

variable {n : Nat} {c : DetAut S CharRange}

/-- What the product computes. -/
theorem product_spec (hf : ∀ x x' y y', f x y = f x' y' → x = x' ∧ y = y') (hg : Intersects g)
    (ha : TableWF a.transitions) (hb : TableWF b.transitions) (had : a.Deterministic) (hbd : b.Deterministic)
    (h : a.product n b f g = some c) :
    c.initial = f a.initial b.initial ∧ ∃ vis : List (Q × R), (a.initial, b.initial) ∈ vis ∧
    (∀ s, s ∈ c.finals ↔ ∃ p ∈ vis, p.1 ∈ a.finals ∧ p.2 ∈ b.finals ∧ s = f p.1 p.2) ∧
    (∀ s t s', (s, t, s') ∈ triples c.transitions ↔ ∃ p ∈ vis, ∃ x, s = f p.1 p.2 ∧ s' = f x.1 x.2 ∧
      (t, x) ∈ a.productEdges b g p) ∧
    (∀ p ∈ vis, ∀ t x, (t, x) ∈ a.productEdges b g p → x ∈ vis) ∧ TableWF c.transitions := by
  unfold product at h
  rw [Option.map_eq_some_iff] at h
  obtain ⟨vis, hv, rfl⟩ := h
  have hinj : ∀ p p' : Q × R, f p.1 p.2 = f p'.1 p'.2 → p = p' := fun p p' he => Prod.ext (hf _ _ _ _ he).1 (hf _ _ _ _ he).2
  have hmap : ∀ p, f p.1 p.2 ∈ vis.map (fun p => f p.1 p.2) → p ∈ vis := by
    intro p hp
    obtain ⟨p', hp', he⟩ := List.mem_map.1 hp
    rwa [← hinj _ _ he]
  obtain ⟨h1, h2⟩ := explore_closed hv (by simp)
  have hfun : ∀ p, ∀ x ∈ (a.productEdges b g p).map (fun e => (e.1, f e.2.1 e.2.2)),
      ∀ y ∈ (a.productEdges b g p).map (fun e => (e.1, f e.2.1 e.2.2)), x.1 = y.1 → x = y := by
    intro p x hx y hy he
    obtain ⟨⟨t, x⟩, hx', rfl⟩ := List.mem_map.1 hx
    obtain ⟨⟨t', y⟩, hy', rfl⟩ := List.mem_map.1 hy
    dsimp only at he
    subst he
    obtain ⟨r, s, h3, h4, h5⟩ := mem_productEdges.1 hx'
    obtain ⟨r', s', h6, h7, h8⟩ := mem_productEdges.1 hy'
    obtain ⟨h9, z, hz⟩ := hg.1 _ _ _ h5
    obtain ⟨h10, -⟩ := hg.1 _ _ _ h8
    have e1 := row_inj had ha h3 h6 ((h9 z).1 hz).1 ((h10 z).1 hz).1
    have e2 := row_inj hbd hb h4 h7 ((h9 z).1 hz).2 ((h10 z).1 hz).2
    rw [e1.2, e2.2]
  have hrow : ∀ p, AMap.Unique (a.productRow b f g p) ∧ ∀ t s, (t, s) ∈ a.productRow b f g p ↔
      ∃ x, s = f x.1 x.2 ∧ (t, x) ∈ a.productEdges b g p := by
    intro p
    have hm := mem_foldl_insert ((a.productEdges b g p).map fun e => (e.1, f e.2.1 e.2.2)) [] List.nodup_nil (hfun p)
    simp only [List.foldl_map] at hm
    unfold productRow
    have hu := fun t s => (hm t s).1
    refine ⟨?_, fun t s => ?_⟩
    · exact (hm ⟨0, 0⟩ (f p.1 p.2)).1
    rw [← AMap.get_iff (hm t s).1, (hm t s).2]
    simp only [AMap.get, reduceCtorEq, and_false, or_false, List.mem_map]
    constructor
    · rintro ⟨⟨t', x⟩, h3, h4⟩
      cases h4
      exact ⟨x, rfl, h3⟩
    · rintro ⟨x, rfl, h3⟩
      exact ⟨_, h3, rfl⟩
  refine ⟨rfl, vis, hmap _ (h1 _ (List.mem_singleton.2 rfl)), ?_, ?_, ?_, ?_, ?_⟩
  · intro s
    simp only [List.mem_map, List.mem_filter, List.mem_reverse, Bool.and_eq_true, isFinal, decide_eq_true_eq]
    constructor
    · rintro ⟨p, ⟨h3, h4, h5⟩, rfl⟩; exact ⟨p, h3, h4, h5, rfl⟩
    · rintro ⟨p, h3, h4, h5, rfl⟩; exact ⟨p, ⟨h3, h4, h5⟩, rfl⟩
  · intro s t s'
    rw [mem_triples]
    simp only [List.mem_map, List.mem_reverse]
    constructor
    · rintro ⟨ts, ⟨p, h3, h4⟩, h5⟩
      cases h4
      obtain ⟨x, h6, h7⟩ := ((hrow p).2 _ _).1 h5
      exact ⟨p, h3, x, rfl, h6, h7⟩
    · rintro ⟨p, h3, x, rfl, rfl, h4⟩
      exact ⟨_, ⟨p, h3, rfl⟩, ((hrow p).2 _ _).2 ⟨x, rfl, h4⟩⟩
  · intro p hp t x hx
    obtain ⟨l, hl, h'⟩ := h2 p hp
    cases hl
    exact hmap _ (h' x (List.mem_map.2 ⟨_, hx, rfl⟩))
  · have hnd := explore_nodup hv (by simp)
    rw [← List.nodup_reverse, ← List.map_reverse] at hnd
    rw [List.map_map]
    exact hnd
  · intro e he
    obtain ⟨p, hp, rfl⟩ := List.mem_map.1 he
    exact (hrow p).1

theorem product_accepts (hf : ∀ x x' y y', f x y = f x' y' → x = x' ∧ y = y') (hg : Intersects g)
    (ha : TableWF a.transitions) (hb : TableWF b.transitions) (had : a.Deterministic) (hbd : b.Deterministic)
    (h : a.product n b f g = some c) (w : List Nat) : c.Accepts w ↔ a.Accepts w ∧ b.Accepts w := by
  obtain ⟨hi, vis, h0, hfin, hedge, hstep, -⟩ := product_spec hf hg ha hb had hbd h
  have hsound : ∀ s w s', c.Path s w s' → ∀ x y, s = f x y → ∃ x' y', s' = f x' y' ∧ a.Path x w x' ∧ b.Path y w y' := by
    intro s w s' hp
    induction hp with
    | nil => exact fun x y hs => ⟨x, y, hs, .nil _, .nil _⟩
    | cons h1 h2 h3 h4 _ ih =>
      intro x y hs
      obtain ⟨p, hp, z, h5, h6, h7⟩ := (hedge _ _ _).1 (mem_triples.2 ⟨_, h1, h2⟩)
      obtain ⟨rfl, rfl⟩ := hf _ _ _ _ (hs.symm.trans h5)
      obtain ⟨r, s, h8, h9, h10⟩ := mem_productEdges.1 h7
      obtain ⟨h11, -⟩ := hg.1 _ _ _ h10
      have hc := (h11 _).1 ⟨h3, h4⟩
      obtain ⟨x', y', h12, h13, h14⟩ := ih _ _ h6
      obtain ⟨ts, h15, h16⟩ := (mem_row ha).1 h8
      obtain ⟨ts', h17, h18⟩ := (mem_row hb).1 h9
      exact ⟨x', y', h12, .cons h15 h16 hc.1.1 hc.1.2 h13, .cons h17 h18 hc.2.1 hc.2.2 h14⟩
  have hcomplete : ∀ x w x', a.Path x w x' → ∀ y y', b.Path y w y' → (x, y) ∈ vis →
      c.Path (f x y) w (f x' y') ∧ (x', y') ∈ vis := by
    intro x w x' hp
    induction hp with
    | nil =>
      intro y y' hy hv
      cases hy
      exact ⟨.nil _, hv⟩
    | cons h1 h2 h3 h4 _ ih =>
      intro y y' hy hv
      cases hy with
      | cons h5 h6 h7 h8 h9 =>
        cases hgr : g _ _ with
        | none => exact absurd ⟨⟨h3, h4⟩, ⟨h7, h8⟩⟩ (hg.2 _ _ hgr _)
        | some t =>
          have he := (mem_productEdges (p := (_, _)) (x := (_, _))).2
            ⟨_, _, (mem_row ha).2 ⟨_, h1, h2⟩, (mem_row hb).2 ⟨_, h5, h6⟩, hgr⟩
          have ht := ((hg.1 _ _ _ hgr).1 _).2 ⟨⟨h3, h4⟩, ⟨h7, h8⟩⟩
          obtain ⟨ih1, ih2⟩ := ih _ _ h9 (hstep _ hv _ _ he)
          obtain ⟨ts, h10, h11⟩ := mem_triples.1 ((hedge _ _ _).2 ⟨_, hv, _, rfl, rfl, he⟩)
          exact ⟨.cons h10 h11 ht.1 ht.2 ih1, ih2⟩
  constructor
  · rintro ⟨s, hs, hp⟩
    obtain ⟨p, hp', h1, h2, rfl⟩ := (hfin s).1 hs
    obtain ⟨x', y', h3, h4, h5⟩ := hsound _ _ _ hp _ _ hi
    obtain ⟨e1, e2⟩ := hf _ _ _ _ h3
    exact ⟨⟨x', e1 ▸ h1, h4⟩, ⟨y', e2 ▸ h2, h5⟩⟩
  · rintro ⟨⟨x, hx, hpx⟩, ⟨y, hy, hpy⟩⟩
    obtain ⟨h1, h2⟩ := hcomplete _ _ _ hpx _ _ hpy h0
    exact ⟨f x y, (hfin _).2 ⟨(x, y), h2, hx, hy, rfl⟩, hi ▸ h1⟩

/-- Every target of a transition. -/
def targets (a : DetAut Q L) : List Q := a.transitions.flatMap fun e => e.2.map Prod.snd

theorem mem_targets_of_row {a : DetAut Q L} {q : Q} {e : L × Q} (h : e ∈ a.row q) : e.2 ∈ a.targets := by
  unfold row at h
  cases hg : AMap.get a.transitions q with
  | none => simp [hg] at h
  | some r =>
    rw [hg] at h
    exact List.mem_flatMap.2 ⟨_, AMap.mem_of_get hg, List.mem_map.2 ⟨e, h, rfl⟩⟩

theorem product_total (a : DetAut Q CharRange) (b : DetAut R CharRange) (f : Q → R → S)
    (g : CharRange → CharRange → Option CharRange) : ∃ N, ∀ n, N ≤ n → ∃ c, a.product n b f g = some c := by
  let U : List (Q × R) := (a.initial :: a.targets).flatMap fun x => (b.initial :: b.targets).map fun y => (x, y)
  have hU : ∀ x : Q × R, x.1 ∈ a.initial :: a.targets → x.2 ∈ b.initial :: b.targets → x ∈ U := fun x h1 h2 =>
    List.mem_flatMap.2 ⟨x.1, h1, List.mem_map.2 ⟨x.2, h2, rfl⟩⟩
  refine ⟨1 + exploreWeight (fun p : Q × R => f p.1 p.2) (fun p => some ((a.productEdges b g p).map Prod.snd)) U [],
    fun n hn => ?_⟩
  obtain ⟨out, ho⟩ := explore_total (key := fun p : Q × R => f p.1 p.2)
    (succ := fun p => some ((a.productEdges b g p).map Prod.snd)) (U := U) (by
      intro s _
      refine ⟨_, rfl, fun t ht => ?_⟩
      obtain ⟨⟨l, x⟩, he, rfl⟩ := List.mem_map.1 ht
      obtain ⟨r, s, h1, h2, -⟩ := mem_productEdges.1 he
      exact hU _ (List.mem_cons_of_mem _ (mem_targets_of_row h1)) (List.mem_cons_of_mem _ (mem_targets_of_row h2)))
    n [] [(a.initial, b.initial)] (by
      intro s hs
      rw [List.mem_singleton] at hs
      subst hs
      exact hU _ (List.mem_cons_self ..) (List.mem_cons_self ..)) hn
  exact ⟨_, by unfold product; rw [ho]; rfl⟩

end Product

/-! ## Reachable states -/

theorem reach_row {a : DetAut Q L} (ha : TableWF a.transitions) {p q : Q} :
    Reach (fun q => some ((a.row q).map Prod.snd)) p q ↔ Relation.ReflTransGen a.Follows p q := by
  constructor
  · intro h
    induction h with
    | refl => exact .refl
    | tail _ hl ht ih =>
      cases hl
      obtain ⟨e, he, rfl⟩ := List.mem_map.1 ht
      obtain ⟨ts, h1, h2⟩ := (mem_row ha).1 he
      exact ih.tail ⟨ts, e.1, h1, h2⟩
  · intro h
    induction h with
    | refl => exact .refl _
    | tail _ hs ih =>
      obtain ⟨ts, l, h1, h2⟩ := hs
      exact .tail ih rfl (List.mem_map.2 ⟨_, (mem_row ha).2 ⟨ts, h1, h2⟩, rfl⟩)

theorem reachableStates_spec {a : DetAut Q L} (ha : TableWF a.transitions) {n : Nat} {q : Q} {out : List Q}
    (h : a.reachableStates n q = some out) : out.Nodup ∧ ∀ s, s ∈ out ↔ Relation.ReflTransGen a.Follows q s := by
  unfold reachableStates at h
  rw [Option.map_eq_some_iff] at h
  obtain ⟨vis, hv, rfl⟩ := h
  refine ⟨?_, fun s => ?_⟩
  · have := explore_nodup hv (by simp)
    rw [List.map_id] at this
    exact List.nodup_reverse.2 this
  · rw [List.mem_reverse, explore_exact hv (fun _ _ _ _ _ _ _ _ h => h)]
    simp [reach_row ha]

theorem reachableStates_total (a : DetAut Q L) (q : Q) : ∃ N, ∀ n, N ≤ n → ∃ out, a.reachableStates n q = some out := by
  refine ⟨1 + exploreWeight id (fun q => some ((a.row q).map Prod.snd)) (q :: a.targets) [], fun n hn => ?_⟩
  obtain ⟨out, ho⟩ := explore_total (key := (id : Q → Q)) (succ := fun q => some ((a.row q).map Prod.snd))
    (U := q :: a.targets) (by
      intro s _
      refine ⟨_, rfl, fun t ht => ?_⟩
      obtain ⟨e, he, rfl⟩ := List.mem_map.1 ht
      exact List.mem_cons_of_mem _ (mem_targets_of_row he)) n [] [q] (by simp) hn
  exact ⟨_, by unfold reachableStates; rw [ho]; rfl⟩

/-! ## Selected states -/

/-- What holds of the states visited by the recursive search, given those visited before. -/
structure Visits (a : DetAut Q L) (is : List Q) (vis out : List Q) : Prop where
  keep : ∀ s ∈ vis, s ∈ out
  starts : ∀ s ∈ is, s ∈ out
  sound : ∀ s ∈ out, s ∈ vis ∨ ∃ i ∈ is, Reach (fun q => some ((a.row q).map Prod.snd)) i s
  closed : ∀ s ∈ out, s ∈ vis ∨ ∀ e ∈ a.row s, e.2 ∈ out
  nodup : vis.Nodup → out.Nodup

theorem visits_foldl (a : DetAut Q L) (visit : Q → List Q → Option (List Q))
    (hvisit : ∀ q vis out, visit q vis = some out → a.Visits [q] vis out) (es : List (L × Q)) (vis out : List Q)
    (h : es.foldlM (fun visited e => visit e.2 visited) vis = some out) : a.Visits (es.map Prod.snd) vis out := by
  induction es generalizing vis with
  | nil =>
    simp only [List.foldlM_nil] at h
    cases h
    exact ⟨fun _ h => h, by simp, fun _ h => .inl h, fun _ h => .inl h, fun h => h⟩
  | cons e es ih =>
    rw [List.foldlM_cons] at h
    cases hv : visit e.2 vis with
    | none => rw [hv] at h; cases h
    | some vis' =>
      rw [hv] at h
      have h1 := hvisit _ _ _ hv
      have h2 := ih vis' h
      refine ⟨fun s hs => h2.keep s (h1.keep s hs), ?_, ?_, ?_, fun hn => h2.nodup (h1.nodup hn)⟩
      · rw [List.map_cons, List.forall_mem_cons]
        exact ⟨h2.keep _ (h1.starts _ (List.mem_singleton.2 rfl)), h2.starts⟩
      · intro s hs
        rcases h2.sound s hs with h3 | ⟨i, hi, h3⟩
        · rcases h1.sound s h3 with h4 | ⟨i, hi, h4⟩
          · exact .inl h4
          · rw [List.mem_singleton] at hi
            subst hi
            exact .inr ⟨_, List.mem_cons_self .., h4⟩
        · exact .inr ⟨i, List.mem_cons_of_mem _ hi, h3⟩
      · intro s hs
        rcases h2.closed s hs with h3 | h3
        · rcases h1.closed s h3 with h4 | h4
          · exact .inl h4
          · exact .inr fun e he => h2.keep _ (h4 e he)
        · exact .inr h3

theorem visits_visitFrom (a : DetAut Q L) (n : Nat) (q : Q) (vis out : List Q) (h : a.visitFrom n q vis = some out) :
    a.Visits [q] vis out := by
  induction n generalizing q vis out with
  | zero => cases h
  | succ n ih =>
    unfold visitFrom at h
    split at h
    · rename_i hq
      cases h
      exact ⟨fun _ h => h, by simpa using hq, fun _ h => .inl h, fun _ h => .inl h, fun h => h⟩
    · rename_i hq
      have h1 := visits_foldl a (a.visitFrom n) (fun q vis out => ih q vis out) _ _ _ h
      refine ⟨fun s hs => h1.keep s (List.mem_cons_of_mem _ hs), ?_, ?_, ?_, fun hn => h1.nodup (List.nodup_cons.2 ⟨hq, hn⟩)⟩
      · rintro s hs
        rw [List.mem_singleton] at hs
        subst hs
        exact h1.keep _ (List.mem_cons_self ..)
      · intro s hs
        rcases h1.sound s hs with h2 | ⟨i, hi, h2⟩
        · rcases List.mem_cons.1 h2 with rfl | h2
          · exact .inr ⟨s, List.mem_singleton.2 rfl, .refl _⟩
          · exact .inl h2
        · exact .inr ⟨q, List.mem_singleton.2 rfl, .head rfl hi h2⟩
      · intro s hs
        rcases h1.closed s hs with h2 | h2
        · rcases List.mem_cons.1 h2 with rfl | h2
          · exact .inr fun e he => h1.starts _ (List.mem_map.2 ⟨e, he, rfl⟩)
          · exact .inl h2
        · exact .inr h2

theorem selectStates_spec {a : DetAut Q L} (ha : TableWF a.transitions) {n : Nat} {f : Q → Bool} {out : List Q}
    (h : a.selectStates n f = some out) :
    out.Nodup ∧ ∀ s, s ∈ out ↔ Relation.ReflTransGen a.Follows a.initial s ∧ f s = true := by
  unfold selectStates at h
  rw [Option.map_eq_some_iff] at h
  obtain ⟨vis, hv, rfl⟩ := h
  have h1 := visits_visitFrom a n _ _ _ hv
  refine ⟨(h1.nodup List.nodup_nil).filter _, fun s => ?_⟩
  rw [List.mem_filter, ← reach_row ha]
  refine and_congr_left' ?_
  constructor
  · intro hs
    simpa using h1.sound s hs
  · intro hr
    induction hr with
    | refl => exact h1.starts _ (List.mem_singleton.2 rfl)
    | tail _ hl ht ih =>
      cases hl
      obtain ⟨e, he, rfl⟩ := List.mem_map.1 ht
      rcases h1.closed _ ih with h2 | h2
      · simp at h2
      · exact h2 e he

theorem filter_length_lt {U vis : List Q} {q : Q} (hq : q ∈ U) (hv : q ∉ vis) {vis' : List Q} (hs : ∀ s ∈ q :: vis, s ∈ vis') :
    (U.filter fun u => decide (u ∉ vis')).length < (U.filter fun u => decide (u ∉ vis)).length := by
  have hle : ∀ U : List Q, (U.filter fun u => decide (u ∉ vis')).length ≤ (U.filter fun u => decide (u ∉ vis)).length := by
    intro U
    induction U with
    | nil => simp
    | cons u U ih =>
      simp only [List.filter_cons]
      by_cases h1 : u ∈ vis
      · have : u ∈ vis' := hs u (List.mem_cons_of_mem _ h1)
        simpa [h1, this] using ih
      · by_cases h2 : u ∈ vis'
        · simp only [h1, h2, not_true_eq_false, not_false_iff, decide_true, decide_false, if_true, List.length_cons]
          simp only [Bool.false_eq_true, if_false]
          omega
        · simpa [h1, h2] using ih
  induction U with
  | nil => simp at hq
  | cons u U ih =>
    simp only [List.filter_cons]
    rcases List.mem_cons.1 hq with rfl | hq
    · have := hs q (List.mem_cons_self ..)
      have hu := hle U
      simp only [hv, this, not_true_eq_false, not_false_iff, decide_true, decide_false, if_true, List.length_cons,
        Bool.false_eq_true, if_false]
      omega
    · have := ih hq
      by_cases h1 : u ∈ vis
      · have h2 : u ∈ vis' := hs u (List.mem_cons_of_mem _ h1)
        simpa [h1, h2] using this
      · by_cases h2 : u ∈ vis'
        · simp only [h1, h2, not_true_eq_false, not_false_iff, decide_true, decide_false, if_true, List.length_cons,
            Bool.false_eq_true, if_false]
          omega
        · simpa [h1, h2] using this

theorem visitFrom_total (a : DetAut Q L) {U : List Q} (hU : ∀ q ∈ U, ∀ e ∈ a.row q, e.2 ∈ U) (n : Nat) (q : Q) (hq : q ∈ U)
    (vis : List Q) (hn : (U.filter fun u => decide (u ∉ vis)).length < n) : ∃ out, a.visitFrom n q vis = some out := by
  induction n generalizing q vis with
  | zero => simp at hn
  | succ n ih =>
    unfold visitFrom
    split
    · exact ⟨_, rfl⟩
    · rename_i hv
      have hfold : ∀ (es : List (L × Q)) (vis' : List Q), (∀ e ∈ es, e.2 ∈ U) → (∀ s ∈ q :: vis, s ∈ vis') →
          ∃ out, es.foldlM (fun visited e => a.visitFrom n e.2 visited) vis' = some out := by
        intro es
        induction es with
        | nil => exact fun vis' _ _ => ⟨vis', rfl⟩
        | cons e es ih' =>
          intro vis' he hvis
          rw [List.forall_mem_cons] at he
          obtain ⟨out, ho⟩ := ih e.2 he.1 vis' (by have := filter_length_lt hq hv hvis; omega)
          rw [List.foldlM_cons, ho]
          exact ih' out he.2 fun s hs => (visits_visitFrom a n _ _ _ ho).keep s (hvis s hs)
      exact hfold _ _ (hU q hq) fun s hs => hs

theorem selectStates_total (a : DetAut Q L) (f : Q → Bool) : ∃ N, ∀ n, N ≤ n → ∃ out, a.selectStates n f = some out := by
  refine ⟨((a.initial :: a.targets).filter fun u => decide (u ∉ ([] : List Q))).length + 1, fun n hn => ?_⟩
  obtain ⟨out, ho⟩ := visitFrom_total a (U := a.initial :: a.targets)
    (fun q _ e he => List.mem_cons_of_mem _ (mem_targets_of_row he)) n a.initial (List.mem_cons_self ..) [] hn
  exact ⟨_, by unfold selectStates; rw [ho]; rfl⟩

end DetAut

end Verif
