import Mathlib.Order.Defs.LinearOrder
import Mathlib.Data.List.Nodup
import Mathlib.Tactic.Tauto

/-!
# Ordered sets, maps, and depth-first exploration

* `BTreeSet<Q>` is an increasing list (`OSet`).
* `BTreeMap<K, V>` (and `HashMap<K, V>`) is an association list (`AMap`). New entries are added at the end: the order in
  which the code iterates over a map is not modelled.
* Several functions of `layouts/src/utils/automaton.rs` share one loop: a stack of states to visit and a set of
  visited states. This is `explore`.
-/

set_option linter.unusedSectionVars false

namespace Verif

/-! ## Sets -/

namespace OSet

variable {Q : Type _} [LinearOrder Q]

/-- `BTreeSet::insert`. -/
def insert (q : Q) : List Q → List Q
  | [] => [q]
  | p :: s => if q < p then q :: p :: s else if q = p then p :: s else p :: insert q s

/-- `BTreeSet::extend`. -/
def extend (s t : List Q) : List Q := t.foldl (fun s q => insert q s) s

/-- `collect::<BTreeSet<_>>()`. -/
def ofList (t : List Q) : List Q := extend [] t

theorem mem_insert {q p : Q} {s : List Q} : p ∈ insert q s ↔ p = q ∨ p ∈ s := by
  induction s with
  | nil => simp [insert]
  | cons r s ih =>
    unfold insert
    split
    · simp
    · split
      · rename_i h
        subst h
        simp
      · simp only [List.mem_cons, ih]
        tauto

theorem sorted_insert {q : Q} {s : List Q} (h : s.Pairwise (· < ·)) : (insert q s).Pairwise (· < ·) := by
  induction s with
  | nil => simp [insert]
  | cons r s ih =>
    rw [List.pairwise_cons] at h
    unfold insert
    split
    · rename_i hlt
      rw [List.pairwise_cons, List.pairwise_cons, List.forall_mem_cons]
      exact ⟨⟨hlt, fun a ha => lt_trans hlt (h.1 a ha)⟩, h⟩
    · split
      · exact List.pairwise_cons.2 h
      · rename_i h1 h2
        rw [List.pairwise_cons]
        refine ⟨fun a ha => ?_, ih h.2⟩
        rcases mem_insert.1 ha with rfl | ha
        · exact lt_of_le_of_ne (not_lt.1 h1) fun he => h2 he.symm
        · exact h.1 a ha

theorem mem_extend {p : Q} {s t : List Q} : p ∈ extend s t ↔ p ∈ s ∨ p ∈ t := by
  induction t generalizing s with
  | nil => simp [extend]
  | cons q t ih =>
    have : extend s (q :: t) = extend (insert q s) t := rfl
    rw [this, ih, mem_insert, List.mem_cons]
    tauto

theorem sorted_extend {s t : List Q} (h : s.Pairwise (· < ·)) : (extend s t).Pairwise (· < ·) := by
  induction t generalizing s with
  | nil => exact h
  | cons q t ih => exact ih (sorted_insert h)

theorem mem_ofList {p : Q} {t : List Q} : p ∈ ofList t ↔ p ∈ t := by simp [ofList, mem_extend]

theorem sorted_ofList {t : List Q} : (ofList t).Pairwise (· < ·) := sorted_extend List.Pairwise.nil

/-- Two sets with the same elements are equal. -/
theorem ext {s t : List Q} (hs : s.Pairwise (· < ·)) (ht : t.Pairwise (· < ·)) (h : ∀ q, q ∈ s ↔ q ∈ t) : s = t := by
  induction s generalizing t with
  | nil =>
    cases t with
    | nil => rfl
    | cons q t => exact absurd ((h q).2 (List.mem_cons_self ..)) (by simp)
  | cons p s ih =>
    cases t with
    | nil => exact absurd ((h p).1 (List.mem_cons_self ..)) (by simp)
    | cons q t =>
      rw [List.pairwise_cons] at hs ht
      have hpq : p = q := by
        rcases List.mem_cons.1 ((h p).1 (List.mem_cons_self ..)) with hp | hp
        · exact hp
        · rcases List.mem_cons.1 ((h q).2 (List.mem_cons_self ..)) with hq | hq
          · exact hq.symm
          · exact absurd (ht.1 p hp) (lt_asymm (hs.1 q hq))
      subst hpq
      congr 1
      refine ih hs.2 ht.2 fun a => ?_
      constructor
      · intro ha
        rcases List.mem_cons.1 ((h a).1 (List.mem_cons_of_mem _ ha)) with rfl | h'
        · exact absurd (hs.1 _ ha) (lt_irrefl _)
        · exact h'
      · intro ha
        rcases List.mem_cons.1 ((h a).2 (List.mem_cons_of_mem _ ha)) with rfl | h'
        · exact absurd (ht.1 _ ha) (lt_irrefl _)
        · exact h'

end OSet

/-! ## Maps -/

namespace AMap

variable {K V : Type _} [DecidableEq K]

/-- `map.get(k)`. -/
def get (m : List (K × V)) (k : K) : Option V :=
  match m with
  | [] => none
  | (k', v) :: m => if k' = k then some v else get m k

/-- `map.entry(k).or_insert(d)` followed by a change `f` of the value. -/
def modify (m : List (K × V)) (k : K) (d : V) (f : V → V) : List (K × V) :=
  match m with
  | [] => [(k, f d)]
  | (k', v) :: m => if k' = k then (k', f v) :: m else (k', v) :: modify m k d f

/-- `map.insert(k, v)`. -/
def insert (m : List (K × V)) (k : K) (v : V) : List (K × V) := modify m k v fun _ => v

/-- Each key has one entry. -/
def Unique (m : List (K × V)) : Prop := (m.map Prod.fst).Nodup

theorem get_eq_none {m : List (K × V)} {k : K} : get m k = none ↔ k ∉ m.map Prod.fst := by
  induction m with
  | nil => simp [get]
  | cons e m ih =>
    obtain ⟨k', v⟩ := e
    unfold get
    split
    · rename_i h; simp [h]
    · rename_i h
      rw [ih, List.map_cons, List.mem_cons]
      constructor
      · rintro h' (h'' | h'')
        · exact h h''.symm
        · exact h' h''
      · exact fun h' h'' => h' (.inr h'')

theorem mem_of_get {m : List (K × V)} {k : K} {v : V} (h : get m k = some v) : (k, v) ∈ m := by
  induction m with
  | nil => simp [get] at h
  | cons e m ih =>
    obtain ⟨k', v'⟩ := e
    unfold get at h
    split at h
    · rename_i hk
      subst hk
      cases h
      exact List.mem_cons_self ..
    · exact List.mem_cons_of_mem _ (ih h)

theorem get_of_mem {m : List (K × V)} (hu : Unique m) {k : K} {v : V} (h : (k, v) ∈ m) : get m k = some v := by
  induction m with
  | nil => simp at h
  | cons e m ih =>
    obtain ⟨k', v'⟩ := e
    rw [Unique, List.map_cons, List.nodup_cons] at hu
    unfold get
    rcases List.mem_cons.1 h with h | h
    · cases h; simp
    · have : k' ≠ k := by
        rintro rfl
        exact hu.1 (List.mem_map.2 ⟨_, h, rfl⟩)
      rw [if_neg this]
      exact ih hu.2 h

theorem get_iff {m : List (K × V)} (hu : Unique m) {k : K} {v : V} : get m k = some v ↔ (k, v) ∈ m :=
  ⟨mem_of_get, get_of_mem hu⟩

theorem get_modify (m : List (K × V)) (k : K) (d : V) (f : V → V) (k' : K) :
    get (modify m k d f) k' = if k' = k then some (f ((get m k).getD d)) else get m k' := by
  induction m with
  | nil =>
    simp only [modify, get]
    by_cases h : k = k'
    · simp [h]
    · rw [if_neg h, if_neg (Ne.symm h)]
  | cons e m ih =>
    obtain ⟨k₁, v₁⟩ := e
    unfold modify
    by_cases h : k₁ = k
    · subst h
      simp only [if_true, get]
      by_cases h' : k₁ = k'
      · simp [h']
      · rw [if_neg h', if_neg h', if_neg (Ne.symm h')]
    · simp only [if_neg h, get, ih]
      by_cases h' : k₁ = k'
      · subst h'; simp [h]
      · simp [h']

theorem keys_modify (m : List (K × V)) (k : K) (d : V) (f : V → V) :
    (modify m k d f).map Prod.fst = if k ∈ m.map Prod.fst then m.map Prod.fst else m.map Prod.fst ++ [k] := by
  induction m with
  | nil => simp [modify]
  | cons e m ih =>
    obtain ⟨k₁, v₁⟩ := e
    unfold modify
    by_cases h : k₁ = k
    · subst h; simp
    · simp only [if_neg h, List.map_cons, ih, List.mem_cons]
      have h' : ¬ k = k₁ := Ne.symm h
      simp only [h', false_or]
      split <;> simp

theorem unique_modify {m : List (K × V)} (h : Unique m) (k : K) (d : V) (f : V → V) : Unique (modify m k d f) := by
  unfold Unique at *
  rw [keys_modify]
  split
  · exact h
  · rename_i hk
    rw [List.nodup_append]
    refine ⟨h, by simp, ?_⟩
    intro a ha b hb hab
    rw [List.mem_singleton] at hb
    subst hb hab
    exact hk ha

theorem get_insert (m : List (K × V)) (k : K) (v : V) (k' : K) :
    get (insert m k v) k' = if k' = k then some v else get m k' := by
  unfold insert
  rw [get_modify]

theorem unique_insert {m : List (K × V)} (h : Unique m) (k : K) (v : V) : Unique (insert m k v) := unique_modify h _ _ _

end AMap

/-! ## Exploration -/

section Explore

variable {σ κ : Type _} [DecidableEq κ]

/-- The loop
```
while let Some(s) = stack.pop() {
  if visited.insert(key(s)) { for t in succ(s) { stack.push(t) } }
}
```
The head of `stack` is its top; `visited` lists the visited elements, the last first. `none` means that `fuel` iterations
were not enough, or that `succ` did not return. -/
def explore (key : σ → κ) (succ : σ → Option (List σ)) : Nat → List σ → List σ → Option (List σ)
  | _, visited, [] => some visited
  | 0, _, _ :: _ => none
  | fuel + 1, visited, s :: stack =>
    if key s ∈ visited.map key then explore key succ fuel visited stack
    else
      match succ s with
      | none => none
      | some l => explore key succ fuel (s :: visited) (l.reverse ++ stack)

/-- What can be reached from an element. -/
inductive Reach (succ : σ → Option (List σ)) : σ → σ → Prop
  | refl (s : σ) : Reach succ s s
  | tail {s t u : σ} {l : List σ} : Reach succ s t → succ t = some l → u ∈ l → Reach succ s u

theorem Reach.head {succ : σ → Option (List σ)} {s t u : σ} {l : List σ} (h : succ s = some l) (ht : t ∈ l)
    (hr : Reach succ t u) : Reach succ s u := by
  induction hr with
  | refl => exact .tail (.refl _) h ht
  | tail _ h1 h2 ih => exact .tail ih h1 h2

variable {key : σ → κ} {succ : σ → Option (List σ)}

/-- The elements that are kept, and those that are added. -/
theorem explore_keep {n : Nat} {vis st out : List σ} (h : explore key succ n vis st = some out) : ∀ s ∈ vis, s ∈ out := by
  induction n generalizing vis st with
  | zero =>
    cases st with
    | nil => cases h; exact fun s hs => hs
    | cons => simp [explore] at h
  | succ n ih =>
    cases st with
    | nil => cases h; exact fun s hs => hs
    | cons s st =>
      unfold explore at h
      split at h
      · exact ih h
      · split at h
        · simp at h
        · exact fun t ht => ih h t (List.mem_cons_of_mem _ ht)

theorem explore_nodup {n : Nat} {vis st out : List σ} (h : explore key succ n vis st = some out)
    (hv : (vis.map key).Nodup) : (out.map key).Nodup := by
  induction n generalizing vis st with
  | zero =>
    cases st with
    | nil => cases h; exact hv
    | cons => simp [explore] at h
  | succ n ih =>
    cases st with
    | nil => cases h; exact hv
    | cons s st =>
      unfold explore at h
      split at h
      · exact ih h hv
      · rename_i hs
        split at h
        · simp at h
        · exact ih h (List.nodup_cons.2 ⟨hs, hv⟩)

/-- What is found is reachable. -/
theorem explore_sound {n : Nat} {vis st out : List σ} (h : explore key succ n vis st = some out) :
    ∀ s ∈ out, s ∈ vis ∨ ∃ i ∈ st, Reach succ i s := by
  induction n generalizing vis st with
  | zero =>
    cases st with
    | nil => cases h; exact fun s hs => .inl hs
    | cons => simp [explore] at h
  | succ n ih =>
    cases st with
    | nil => cases h; exact fun s hs => .inl hs
    | cons i st =>
      unfold explore at h
      split at h
      · intro s hs
        rcases ih h s hs with h' | ⟨j, hj, h'⟩
        · exact .inl h'
        · exact .inr ⟨j, List.mem_cons_of_mem _ hj, h'⟩
      · split at h
        · simp at h
        · rename_i l hl
          intro s hs
          rcases ih h s hs with h' | ⟨j, hj, h'⟩
          · rcases List.mem_cons.1 h' with rfl | h'
            · exact .inr ⟨s, List.mem_cons_self .., .refl _⟩
            · exact .inl h'
          · rcases List.mem_append.1 hj with hj | hj
            · exact .inr ⟨i, List.mem_cons_self .., .head hl (List.mem_reverse.1 hj) h'⟩
            · exact .inr ⟨j, List.mem_cons_of_mem _ hj, h'⟩

/-- The keys of the stack are found, and those of the successors of what is found. -/
theorem explore_closed {n : Nat} {vis st out : List σ} (h : explore key succ n vis st = some out)
    (hv : ∀ s ∈ vis, ∃ l, succ s = some l ∧ ∀ t ∈ l, key t ∈ vis.map key ∨ t ∈ st) :
    (∀ s ∈ st, key s ∈ out.map key) ∧ ∀ s ∈ out, ∃ l, succ s = some l ∧ ∀ t ∈ l, key t ∈ out.map key := by
  induction n generalizing vis st with
  | zero =>
    cases st with
    | nil =>
      cases h
      refine ⟨by simp, fun s hs => ?_⟩
      obtain ⟨l, hl, h'⟩ := hv s hs
      exact ⟨l, hl, fun t ht => (h' t ht).resolve_right (by simp)⟩
    | cons => simp [explore] at h
  | succ n ih =>
    cases st with
    | nil =>
      cases h
      refine ⟨by simp, fun s hs => ?_⟩
      obtain ⟨l, hl, h'⟩ := hv s hs
      exact ⟨l, hl, fun t ht => (h' t ht).resolve_right (by simp)⟩
    | cons i st =>
      unfold explore at h
      split at h
      · rename_i hi
        have := ih h (fun s hs => by
          obtain ⟨l, hl, h'⟩ := hv s hs
          refine ⟨l, hl, fun t ht => ?_⟩
          rcases h' t ht with h' | h'
          · exact .inl h'
          · rcases List.mem_cons.1 h' with rfl | h'
            · exact .inl hi
            · exact .inr h')
        refine ⟨fun s hs => ?_, this.2⟩
        rcases List.mem_cons.1 hs with rfl | hs
        · obtain ⟨j, hj, he⟩ := List.mem_map.1 hi
          exact List.mem_map.2 ⟨j, explore_keep h j hj, he⟩
        · exact this.1 s hs
      · split at h
        · simp at h
        · rename_i l hl
          have := ih h (fun s hs => by
            rcases List.mem_cons.1 hs with rfl | hs
            · exact ⟨l, hl, fun t ht => .inr (List.mem_append_left _ (List.mem_reverse.2 ht))⟩
            · obtain ⟨l', hl', h'⟩ := hv s hs
              refine ⟨l', hl', fun t ht => ?_⟩
              rcases h' t ht with h' | h'
              · exact .inl (List.mem_cons_of_mem _ h')
              · rcases List.mem_cons.1 h' with rfl | h'
                · exact .inl (List.mem_cons_self ..)
                · exact .inr (List.mem_append_right _ h'))
          refine ⟨fun s hs => ?_, this.2⟩
          rcases List.mem_cons.1 hs with rfl | hs
          · exact List.mem_map.2 ⟨s, explore_keep h s (List.mem_cons_self ..), rfl⟩
          · exact this.1 s (List.mem_append_right _ hs)

/-- When different reachable elements have different keys, the exploration finds exactly what is reachable. -/
theorem explore_exact {n : Nat} {st out : List σ} (h : explore key succ n [] st = some out)
    (hinj : ∀ i ∈ st, ∀ j ∈ st, ∀ s t, Reach succ i s → Reach succ j t → key s = key t → s = t) (s : σ) :
    s ∈ out ↔ ∃ i ∈ st, Reach succ i s := by
  constructor
  · intro hs
    simpa using explore_sound h s hs
  · rintro ⟨i, hi, hr⟩
    obtain ⟨h1, h2⟩ := explore_closed h (by simp)
    have hback : ∀ t j, j ∈ st → Reach succ j t → key t ∈ out.map key → t ∈ out := by
      intro t j hj ht hk
      obtain ⟨u, hu, he⟩ := List.mem_map.1 hk
      obtain ⟨k, hk, hku⟩ : ∃ i ∈ st, Reach succ i u := by simpa using explore_sound h u hu
      rwa [hinj j hj k hk t u ht hku he.symm]
    induction hr with
    | refl => exact hback i i hi (.refl _) (h1 i hi)
    | tail hr hl ht ih =>
      obtain ⟨l', hl', h'⟩ := h2 _ ih
      rw [hl] at hl'
      cases hl'
      exact hback _ i hi (.tail hr hl ht) (h' _ ht)

/-- More iterations do not change the result. -/
theorem explore_mono {n m : Nat} (hnm : n ≤ m) {vis st out : List σ} (h : explore key succ n vis st = some out) :
    explore key succ m vis st = some out := by
  induction n generalizing m vis st with
  | zero =>
    cases st with
    | nil => cases m <;> exact h
    | cons => simp [explore] at h
  | succ n ih =>
    obtain ⟨m, rfl⟩ : ∃ k, m = k + 1 := ⟨m - 1, by omega⟩
    cases st with
    | nil => exact h
    | cons i st =>
      unfold explore at h ⊢
      split
      · rename_i hi
        rw [if_pos hi] at h
        exact ih (by omega) h
      · rename_i hi
        rw [if_neg hi] at h
        cases hs : succ i with
        | none => simp [hs] at h
        | some l =>
          simp only [hs] at h ⊢
          exact ih (by omega) h

/-- The number of elements that remain to be pushed, when the elements are taken from `U`. -/
def exploreWeight (key : σ → κ) (succ : σ → Option (List σ)) (U vis : List σ) : Nat :=
  ((U.filter fun u => decide (key u ∉ vis.map key)).map fun u => ((succ u).getD []).length).sum

theorem exploreWeight_cons {U vis : List σ} {s : σ} (hs : s ∈ U) (hk : key s ∉ vis.map key) :
    exploreWeight key succ U (s :: vis) + ((succ s).getD []).length ≤ exploreWeight key succ U vis := by
  have hle : ∀ U : List σ, exploreWeight key succ U (s :: vis) ≤ exploreWeight key succ U vis := by
    intro U
    induction U with
    | nil => simp [exploreWeight]
    | cons u U ih =>
      unfold exploreWeight at ih ⊢
      simp only [List.filter_cons, List.map_cons, List.mem_cons]
      by_cases h1 : key u = key s
      · simp only [h1, true_or, not_true_eq_false, decide_false, Bool.false_eq_true, if_false, hk, not_false_iff, decide_true,
          if_true, List.map_cons, List.sum_cons]
        simp only [List.map_cons, List.mem_cons] at ih
        omega
      · simp only [List.map_cons, List.mem_cons] at ih
        by_cases h2 : key u ∈ vis.map key
        · simpa [h1, h2] using ih
        · simp only [h1, h2, false_or, not_false_iff, decide_true, if_true, List.map_cons, List.sum_cons]
          omega
  induction U with
  | nil => simp at hs
  | cons u U ih =>
    have hu := hle U
    unfold exploreWeight at ih hu ⊢
    simp only [List.filter_cons, List.map_cons, List.mem_cons] at ih hu ⊢
    rcases List.mem_cons.1 hs with rfl | hs
    · simp only [true_or, not_true_eq_false, decide_false, Bool.false_eq_true, if_false, hk, not_false_iff, decide_true,
        if_true, List.map_cons, List.sum_cons]
      omega
    · have := ih hs
      by_cases h1 : key u = key s
      · simp only [h1, true_or, not_true_eq_false, decide_false, Bool.false_eq_true, if_false, hk, not_false_iff, decide_true,
          if_true, List.map_cons, List.sum_cons]
        omega
      · by_cases h2 : key u ∈ vis.map key
        · simpa [h1, h2] using this
        · simp only [h1, h2, false_or, not_false_iff, decide_true, if_true, List.map_cons, List.sum_cons]
          omega

/-- The exploration of a finite graph ends. -/
theorem explore_total {U : List σ} (hU : ∀ s ∈ U, ∃ l, succ s = some l ∧ ∀ t ∈ l, t ∈ U) (n : Nat) (vis st : List σ)
    (hst : ∀ s ∈ st, s ∈ U) (hn : st.length + exploreWeight key succ U vis ≤ n) :
    ∃ out, explore key succ n vis st = some out := by
  induction n generalizing vis st with
  | zero =>
    cases st with
    | nil => exact ⟨_, rfl⟩
    | cons => simp at hn
  | succ n ih =>
    cases st with
    | nil => exact ⟨_, rfl⟩
    | cons s st =>
      rw [List.forall_mem_cons] at hst
      simp only [List.length_cons] at hn
      unfold explore
      split
      · exact ih vis st hst.2 (by omega)
      · rename_i hk
        obtain ⟨l, hl, hlU⟩ := hU s hst.1
        have := exploreWeight_cons (succ := succ) hst.1 hk
        rw [hl, Option.getD_some] at this
        rw [hl]
        refine ih _ _ ?_ ?_
        · rw [List.forall_mem_append]
          exact ⟨fun t ht => hlU t (List.mem_reverse.1 ht), hst.2⟩
        · rw [List.length_append, List.length_reverse]
          omega

end Explore

end Verif
