import Verif.NfaLemmas

/-! # The product of two non-deterministic automata -/

set_option linter.unusedSectionVars false
set_option linter.unusedSimpArgs false

namespace Verif

namespace Nfa

variable {Q R S : Type _} [LinearOrder Q] [LinearOrder R] [LinearOrder S]

theorem mem_productEdges_some {a : Nfa Q} {b : Nfa R} {p : Q × R} {label : RangeSet} {ps : List (Q × R)} :
    (some label, ps) ∈ a.productEdges b p ↔ ∃ la qa lb qb, (some la, qa) ∈ a.row p.1 ∧ (some lb, qb) ∈ b.row p.2 ∧
      RangeSet.intersection la lb ≠ [] ∧ label = RangeSet.intersection la lb ∧
      ps = qa.flatMap fun sa => qb.map fun sb => (sa, sb) := by
  unfold productEdges
  rw [List.mem_flatMap]
  constructor
  · rintro ⟨⟨l, qa⟩, he, h⟩
    cases l with
    | none =>
      dsimp only at h
      split at h <;> simp at h
    | some la =>
      dsimp only at h
      rw [List.mem_filterMap] at h
      obtain ⟨⟨l', qb⟩, he', h⟩ := h
      cases l' with
      | none => simp at h
      | some lb =>
        dsimp only at h
        split at h
        · simp at h
        · rename_i hne
          simp only [Option.some.injEq, Prod.mk.injEq] at h
          obtain ⟨rfl, rfl⟩ := h
          refine ⟨la, qa, lb, qb, he, he', ?_, rfl, rfl⟩
          simpa using hne
  · rintro ⟨la, qa, lb, qb, h1, h2, h3, rfl, rfl⟩
    refine ⟨_, h1, ?_⟩
    dsimp only
    rw [List.mem_filterMap]
    refine ⟨_, h2, ?_⟩
    dsimp only
    rw [if_neg (by simpa using h3)]

theorem mem_productEdges_none {a : Nfa Q} {b : Nfa R} {p : Q × R} {ps : List (Q × R)} (h : (none, ps) ∈ a.productEdges b p) :
    ∃ qa qb, (none, qa) ∈ a.row p.1 ∧ (none, qb) ∈ b.row p.2 ∧ ps = qa.flatMap fun sa => qb.map fun sb => (sa, sb) := by
  unfold productEdges at h
  rw [List.mem_flatMap] at h
  obtain ⟨⟨l, qa⟩, he, h⟩ := h
  cases l with
  | some la =>
    dsimp only at h
    rw [List.mem_filterMap] at h
    obtain ⟨⟨l', qb⟩, he', h⟩ := h
    cases l' with
    | none => simp at h
    | some lb =>
      dsimp only at h
      split at h <;> simp at h
  | none =>
    dsimp only at h
    split at h
    · rename_i qb hqb
      rw [List.mem_singleton] at h
      cases h
      exact ⟨qa, qb, he, AMap.mem_of_get hqb, rfl⟩
    · simp at h

theorem mem_pairs {qa : List Q} {qb : List R} {x : Q × R} :
    x ∈ (qa.flatMap fun sa => qb.map fun sb => (sa, sb)) ↔ x.1 ∈ qa ∧ x.2 ∈ qb := by
  rw [List.mem_flatMap]
  constructor
  · rintro ⟨s, hs, h⟩
    obtain ⟨t, ht, rfl⟩ := List.mem_map.1 h
    exact ⟨hs, ht⟩
  · rintro ⟨h1, h2⟩
    exact ⟨x.1, h1, List.mem_map.2 ⟨x.2, h2, rfl⟩⟩

/-- The row built by a sequence of `entry(label).or_default().extend(targets)`. -/
theorem foldl_modify {K : Type _} [DecidableEq K] (edges : List (K × List S)) (row : List (K × List S)) (k : K) (s : S)
    (hu : AMap.Unique row) :
    let out := edges.foldl (fun row e => AMap.modify row e.1 [] fun s => OSet.extend s e.2) row
    AMap.Unique out ∧ ((∃ ss, (k, ss) ∈ out ∧ s ∈ ss) ↔ (∃ ss, (k, ss) ∈ row ∧ s ∈ ss) ∨ ∃ ss, (k, ss) ∈ edges ∧ s ∈ ss) := by
  induction edges generalizing row with
  | nil => exact ⟨hu, by simp⟩
  | cons e edges ih =>
    obtain ⟨k', es⟩ := e
    obtain ⟨h1, h2⟩ := ih (AMap.modify row k' [] fun s => OSet.extend s es) (AMap.unique_modify hu _ _ _)
    refine ⟨h1, ?_⟩
    rw [List.foldl_cons, h2]
    have hmod : (∃ ss, (k, ss) ∈ AMap.modify row k' [] (fun s => OSet.extend s es) ∧ s ∈ ss) ↔
        (∃ ss, (k, ss) ∈ row ∧ s ∈ ss) ∨ (k = k' ∧ s ∈ es) := by
      simp only [← AMap.get_iff (AMap.unique_modify hu k' [] fun s => OSet.extend s es), ← AMap.get_iff hu, AMap.get_modify]
      by_cases hk : k = k'
      · subst hk
        simp only [if_true, Option.some.injEq, exists_eq_left', true_and]
        rw [OSet.mem_extend]
        cases hg : AMap.get row k <;> simp
      · simp only [hk, if_false, false_and, or_false, AMap.get_iff hu]
    rw [hmod, or_assoc]
    refine or_congr_right ?_
    constructor
    · rintro (⟨rfl, h⟩ | ⟨ss, h, h'⟩)
      · exact ⟨es, List.mem_cons_self .., h⟩
      · exact ⟨ss, List.mem_cons_of_mem _ h, h'⟩
    · rintro ⟨ss, h, h'⟩
      rcases List.mem_cons.1 h with h | h
      · cases h; exact .inl ⟨rfl, h'⟩
      · exact .inr ⟨ss, h, h'⟩

theorem mem_productRow {a : Nfa Q} {b : Nfa R} {f : Q → R → S} {p : Q × R} {l : Option RangeSet} {s : S} :
    (∃ ss, (l, ss) ∈ a.productRow b f p ∧ s ∈ ss) ↔ ∃ ps, (l, ps) ∈ a.productEdges b p ∧ ∃ x ∈ ps, s = f x.1 x.2 := by
  have h := (foldl_modify ((a.productEdges b p).map fun e => (e.1, e.2.map fun t => f t.1 t.2)) [] l s List.nodup_nil).2
  rw [List.foldl_map] at h
  unfold productRow
  rw [h]
  simp only [List.not_mem_nil, false_and, exists_false, false_or]
  constructor
  · rintro ⟨ss, hss, hs⟩
    obtain ⟨e, he, heq⟩ := List.mem_map.1 hss
    cases heq
    obtain ⟨x, hx, rfl⟩ := List.mem_map.1 hs
    exact ⟨e.2, he, x, hx, rfl⟩
  · rintro ⟨ps, hps, x, hx, rfl⟩
    exact ⟨_, List.mem_map.2 ⟨_, hps, rfl⟩, List.mem_map.2 ⟨x, hx, rfl⟩⟩

variable {n : Nat} {a : Nfa Q} {b : Nfa R} {f : Q → R → S} {c : Nfa S}

/-- The pairs of states that are visited. -/
structure ProductSpec (a : Nfa Q) (b : Nfa R) (f : Q → R → S) (c : Nfa S) (vis : List (Q × R)) : Prop where
  initials : ∀ s, s ∈ c.initials ↔ ∃ x ∈ a.initials, ∃ y ∈ b.initials, s = f x y
  finals : ∀ s, s ∈ c.finals ↔ ∃ p ∈ vis, p.1 ∈ a.finals ∧ p.2 ∈ b.finals ∧ s = f p.1 p.2
  transitions : ∀ e, e ∈ c.transitions ↔ ∃ p ∈ vis, e = (f p.1 p.2, a.productRow b f p)
  start : ∀ x ∈ a.initials, ∀ y ∈ b.initials, (x, y) ∈ vis
  step : ∀ p ∈ vis, ∀ e ∈ a.productEdges b p, ∀ x ∈ e.2, x ∈ vis

theorem product_spec (hf : ∀ x x' y y', f x y = f x' y' → x = x' ∧ y = y') (h : a.product n b f = some c) :
    ∃ vis, ProductSpec a b f c vis := by
  unfold product at h
  dsimp only at h
  rw [Option.map_eq_some_iff] at h
  obtain ⟨vis, hv, rfl⟩ := h
  have hinj : ∀ p p' : Q × R, f p.1 p.2 = f p'.1 p'.2 → p = p' := fun p p' he => Prod.ext (hf _ _ _ _ he).1 (hf _ _ _ _ he).2
  have hmap : ∀ p, f p.1 p.2 ∈ vis.map (fun p => f p.1 p.2) → p ∈ vis := by
    intro p hp
    obtain ⟨p', hp', he⟩ := List.mem_map.1 hp
    rwa [← hinj _ _ he]
  obtain ⟨h1, h2⟩ := explore_closed hv (by simp)
  refine ⟨vis, ?_, ?_, ?_, ?_, ?_⟩
  · intro s
    simp only [OSet.mem_ofList, List.mem_map, mem_pairs]
    constructor
    · rintro ⟨p, ⟨hp1, hp2⟩, rfl⟩; exact ⟨p.1, hp1, p.2, hp2, rfl⟩
    · rintro ⟨x, hx, y, hy, rfl⟩; exact ⟨(x, y), ⟨hx, hy⟩, rfl⟩
  · intro s
    simp only [OSet.mem_ofList, List.mem_map, List.mem_filter, Bool.and_eq_true, decide_eq_true_eq]
    constructor
    · rintro ⟨p, ⟨hp, h3, h4⟩, rfl⟩; exact ⟨p, hp, h3, h4, rfl⟩
    · rintro ⟨p, hp, h3, h4, rfl⟩; exact ⟨p, ⟨hp, h3, h4⟩, rfl⟩
  · intro e
    simp only [List.mem_map, List.mem_reverse]
    constructor
    · rintro ⟨p, hp, rfl⟩; exact ⟨p, hp, rfl⟩
    · rintro ⟨p, hp, rfl⟩; exact ⟨p, hp, rfl⟩
  · intro x hx y hy
    exact hmap _ (h1 (x, y) (List.mem_reverse.2 (mem_pairs.2 ⟨hx, hy⟩)))
  · intro p hp e he x hx
    obtain ⟨l, hl, h'⟩ := h2 p hp
    cases hl
    exact hmap _ (h' x (List.mem_flatMap.2 ⟨e, he, hx⟩))

theorem product_path_sound (ha : a.WF) (hb : b.WF) (hf : ∀ x x' y y', f x y = f x' y' → x = x' ∧ y = y')
    {vis : List (Q × R)} (h : ProductSpec a b f c vis) {s t : S} {w : List Nat} (hp : c.Path s w t) :
    ∀ x y, s = f x y → ∃ x' y', t = f x' y' ∧ a.Path x w x' ∧ b.Path y w y' := by
  induction hp with
  | nil => exact fun x y hs => ⟨x, y, hs, .nil _, .nil _⟩
  | epsilon h1 h2 h3 _ ih =>
    intro x y hs
    obtain ⟨p, hp, he⟩ := (h.transitions _).1 h1
    cases he
    obtain ⟨rfl, rfl⟩ := hf _ _ _ _ hs
    obtain ⟨ps, hps, z, hz, rfl⟩ := mem_productRow.1 ⟨_, h2, h3⟩
    obtain ⟨qa, qb, h4, h5, rfl⟩ := mem_productEdges_none hps
    rw [mem_pairs] at hz
    obtain ⟨x', y', h6, h7, h8⟩ := ih _ _ rfl
    obtain ⟨ra, h9, h10⟩ := (mem_row ha).1 h4
    obtain ⟨rb, h11, h12⟩ := (mem_row hb).1 h5
    exact ⟨x', y', h6, .epsilon h9 h10 hz.1 h7, .epsilon h11 h12 hz.2 h8⟩
  | char h1 h2 hc h3 _ ih =>
    intro x y hs
    obtain ⟨p, hp, he⟩ := (h.transitions _).1 h1
    cases he
    obtain ⟨rfl, rfl⟩ := hf _ _ _ _ hs
    obtain ⟨ps, hps, z, hz, rfl⟩ := mem_productRow.1 ⟨_, h2, h3⟩
    obtain ⟨la, qa, lb, qb, h4, h5, -, rfl, rfl⟩ := mem_productEdges_some.1 hps
    rw [mem_pairs] at hz
    obtain ⟨x', y', h6, h7, h8⟩ := ih _ _ rfl
    obtain ⟨ra, h9, h10⟩ := (mem_row ha).1 h4
    obtain ⟨rb, h11, h12⟩ := (mem_row hb).1 h5
    obtain ⟨wa, va⟩ := ha.ranges _ h9 _ h10 la rfl
    obtain ⟨wb, vb⟩ := hb.ranges _ h11 _ h12 lb rfl
    rw [RangeSet.mem_intersection wa va wb vb] at hc
    exact ⟨x', y', h6, .char h9 h10 hc.1 hz.1 h7, .char h11 h12 hc.2 hz.2 h8⟩

theorem product_path_complete (ha : a.WF) (hb : b.WF) (hae : a.EpsFree) (hbe : b.EpsFree) {vis : List (Q × R)}
    (h : ProductSpec a b f c vis) {x x' : Q} {y y' : R} {w : List Nat} (hx : a.Path x w x') (hy : b.Path y w y')
    (hv : (x, y) ∈ vis) : c.Path (f x y) w (f x' y') ∧ (x', y') ∈ vis := by
  induction hx generalizing y with
  | nil =>
    cases hy with
    | nil => exact ⟨.nil _, hv⟩
    | epsilon h1 h2 => exact absurd rfl (hbe _ h1 _ h2)
  | epsilon h1 h2 => exact absurd rfl (hae _ h1 _ h2)
  | char h1 h2 h3 h4 _ ih =>
    cases hy with
    | epsilon h1 h2 => exact absurd rfl (hbe _ h1 _ h2)
    | char h5 h6 h7 h8 h9 =>
      obtain ⟨wa, va⟩ := ha.ranges _ h1 _ h2 _ rfl
      obtain ⟨wb, vb⟩ := hb.ranges _ h5 _ h6 _ rfl
      have hc := (RangeSet.mem_intersection wa va wb vb _).2 ⟨h3, h7⟩
      have he := mem_productEdges_some.2 ⟨_, _, _, _, (mem_row ha (q := (_, _).1)).2 ⟨_, h1, h2⟩,
        (mem_row hb (q := (_, _).2)).2 ⟨_, h5, h6⟩, (by
          rintro h0
          rw [h0] at hc
          exact RangeSet.mem_nil hc), rfl, rfl⟩
      have hz := (mem_pairs (x := (_, _))).2 ⟨h4, h8⟩
      obtain ⟨ih1, ih2⟩ := ih h9 (h.step _ hv _ he _ hz)
      obtain ⟨ss, h10, h11⟩ := mem_productRow (f := f).2 ⟨_, he, _, hz, rfl⟩
      exact ⟨.char ((h.transitions _).2 ⟨_, hv, rfl⟩) h10 hc h11 ih1, ih2⟩

theorem product_total : ∃ N, ∀ n, N ≤ n → ∃ c, a.product n b f = some c := by
  let A := a.initials ++ a.targets
  let B := b.initials ++ b.targets
  let U : List (Q × R) := A.flatMap fun x => B.map fun y => (x, y)
  let st := (a.initials.flatMap fun x => b.initials.map fun y => (x, y)).reverse
  refine ⟨st.length + exploreWeight (fun p : Q × R => f p.1 p.2) (fun p => some ((a.productEdges b p).flatMap Prod.snd)) U [],
    fun n hn => ?_⟩
  obtain ⟨out, ho⟩ := explore_total (key := fun p : Q × R => f p.1 p.2)
    (succ := fun p => some ((a.productEdges b p).flatMap Prod.snd)) (U := U) (by
      intro s _
      refine ⟨_, rfl, fun t ht => ?_⟩
      obtain ⟨⟨l, ps⟩, he, ht⟩ := List.mem_flatMap.1 ht
      refine mem_pairs.2 ?_
      cases l with
      | none =>
        obtain ⟨qa, qb, h1, h2, rfl⟩ := mem_productEdges_none he
        have ht := mem_pairs.1 ht
        exact ⟨List.mem_append_right _ (mem_targets_of_row h1 _ ht.1), List.mem_append_right _ (mem_targets_of_row h2 _ ht.2)⟩
      | some l =>
        obtain ⟨la, qa, lb, qb, h1, h2, -, -, rfl⟩ := mem_productEdges_some.1 he
        have ht := mem_pairs.1 ht
        exact ⟨List.mem_append_right _ (mem_targets_of_row h1 _ ht.1), List.mem_append_right _ (mem_targets_of_row h2 _ ht.2)⟩)
    n [] st (by
      intro s hs
      have hs := mem_pairs.1 (List.mem_reverse.1 hs)
      exact mem_pairs.2 ⟨List.mem_append_left _ hs.1, List.mem_append_left _ hs.2⟩) hn
  exact ⟨_, by unfold product; dsimp only; rw [ho]; rfl⟩

end Nfa

end Verif
