import Verif.NfaSpec
import Verif.AutomatonSpec

/-! # Determinization: lemmas -/

set_option linter.unusedSectionVars false
set_option linter.unusedSimpArgs false

namespace Verif

namespace Nfa

variable {Q : Type _} [LinearOrder Q]

theorem mem_row {a : Nfa Q} (ha : a.WF) {q : Q} {e : Option RangeSet × List Q} :
    e ∈ a.row q ↔ ∃ row, (q, row) ∈ a.transitions ∧ e ∈ row := by
  unfold row
  constructor
  · intro h
    cases hg : AMap.get a.transitions q with
    | none => simp [hg] at h
    | some r =>
      rw [hg] at h
      exact ⟨r, AMap.mem_of_get hg, h⟩
  · rintro ⟨r, hr, he⟩
    rw [AMap.get_of_mem ha.states hr]
    exact he

theorem unique_row {a : Nfa Q} (ha : a.WF) (q : Q) : AMap.Unique (a.row q) := by
  unfold row
  cases hg : AMap.get a.transitions q with
  | none => exact List.nodup_nil
  | some r => exact ha.labels _ (AMap.mem_of_get hg)

theorem mem_epsilon {a : Nfa Q} (ha : a.WF) {q t : Q} :
    t ∈ a.epsilon q ↔ ∃ qs, (none, qs) ∈ a.row q ∧ t ∈ qs := by
  unfold epsilon
  constructor
  · intro h
    cases hg : AMap.get (a.row q) none with
    | none => simp [hg] at h
    | some r =>
      rw [hg] at h
      exact ⟨r, AMap.mem_of_get hg, h⟩
  · rintro ⟨r, hr, he⟩
    rw [AMap.get_of_mem (unique_row ha q) hr]
    exact he

/-- Every target of a transition. -/
def targets (a : Nfa Q) : List Q := a.transitions.flatMap fun e => e.2.flatMap Prod.snd

theorem mem_targets_of_row {a : Nfa Q} {q : Q} {e : Option RangeSet × List Q} (h : e ∈ a.row q) : ∀ t ∈ e.2, t ∈ a.targets := by
  intro t ht
  unfold row at h
  cases hg : AMap.get a.transitions q with
  | none => simp [hg] at h
  | some r =>
    rw [hg] at h
    exact List.mem_flatMap.2 ⟨_, AMap.mem_of_get hg, List.mem_flatMap.2 ⟨e, h, ht⟩⟩

theorem epsilon_subset (a : Nfa Q) (q : Q) : ∀ t ∈ a.epsilon q, t ∈ a.targets := by
  intro t ht
  unfold epsilon at ht
  cases hg : AMap.get (a.row q) none with
  | none => simp [hg] at ht
  | some r =>
    rw [hg] at ht
    exact mem_targets_of_row (AMap.mem_of_get hg) t ht

theorem get_length_le (row : NRow Q) (l : Option RangeSet) :
    ((AMap.get row l).getD []).length ≤ (row.map fun r => r.2.length).sum := by
  induction row with
  | nil => simp [AMap.get]
  | cons e row ih =>
    obtain ⟨k, qs⟩ := e
    unfold AMap.get
    split
    · simp
    · simp only [List.map_cons, List.sum_cons]
      omega

theorem sum_epsilon_le {a : Nfa Q} (ha : a.WF) :
    ((a.transitions.map Prod.fst).map fun q => (a.epsilon q).length).sum ≤ a.size := by
  unfold size
  rw [List.map_map]
  have : ∀ l : List (Q × NRow Q), (∀ e ∈ l, e ∈ a.transitions) →
      (l.map ((fun q => (a.epsilon q).length) ∘ Prod.fst)).sum ≤ (l.map fun e => (e.2.map fun r => r.2.length).sum).sum := by
    intro l hl
    induction l with
    | nil => simp
    | cons e l ih =>
      rw [List.forall_mem_cons] at hl
      simp only [List.map_cons, List.sum_cons, Function.comp_apply]
      have h1 := ih hl.2
      have h2 : (a.epsilon e.1).length ≤ (e.2.map fun r => r.2.length).sum := by
        unfold epsilon row
        rw [AMap.get_of_mem ha.states (show (e.1, e.2) ∈ _ from hl.1), Option.getD_some]
        exact get_length_le _ _
      omega
  exact this _ fun _ h => h

/-- The loop of `modulo_epsilon_state` ends. -/
theorem closureLoop_total {a : Nfa Q} (ha : a.WF) (qs : List Q) : ∃ out, a.closureLoop qs = some out := by
  unfold closureLoop
  refine explore_total (U := a.transitions.map Prod.fst ++
    (qs ++ a.targets).filter fun q => decide (q ∉ a.transitions.map Prod.fst)) ?_ _ _ _ ?_ ?_
  · intro s _
    refine ⟨_, rfl, fun t ht => ?_⟩
    rw [List.mem_append, List.mem_filter]
    by_cases h : t ∈ a.transitions.map Prod.fst
    · exact .inl h
    · exact .inr ⟨List.mem_append_right _ (epsilon_subset a s t ht), by simpa using h⟩
  · intro s hs
    rw [List.mem_append, List.mem_filter]
    by_cases h : s ∈ a.transitions.map Prod.fst
    · exact .inl h
    · exact .inr ⟨List.mem_append_left _ (List.mem_reverse.1 hs), by simpa using h⟩
  · rw [List.length_reverse]
    refine Nat.add_le_add_left ?_ _
    unfold exploreWeight
    simp only [List.map_nil, List.not_mem_nil, not_false_iff, decide_true, List.filter_true, Option.getD_some,
      List.map_append, List.sum_append]
    have h0 : ∀ l : List Q, (∀ q ∈ l, q ∉ a.transitions.map Prod.fst) → (l.map fun q => (a.epsilon q).length).sum = 0 := by
      intro l hl
      induction l with
      | nil => rfl
      | cons q l ih =>
        rw [List.forall_mem_cons] at hl
        simp only [List.map_cons, List.sum_cons, ih hl.2, Nat.add_zero]
        unfold epsilon row
        rw [AMap.get_eq_none.2 hl.1]
        rfl
    rw [h0 ((qs ++ a.targets).filter _) (fun q hq => by simpa using (List.mem_filter.1 hq).2), Nat.add_zero]
    exact sum_epsilon_le ha

theorem Path.append {a : Nfa Q} {p q r : Q} {u v : List Nat} (h : a.Path p u q) (h' : a.Path q v r) : a.Path p (u ++ v) r := by
  induction h with
  | nil => exact h'
  | epsilon h1 h2 h3 _ ih => exact .epsilon h1 h2 h3 (ih h')
  | char h1 h2 h3 h4 _ ih => exact .char h1 h2 h3 h4 (ih h')

theorem reach_iff {a : Nfa Q} (ha : a.WF) {p q : Q} : Reach (fun q => some (a.epsilon q)) p q ↔ a.Path p [] q := by
  constructor
  · intro h
    induction h with
    | refl => exact .nil _
    | tail _ hl ht ih =>
      cases hl
      obtain ⟨qs, h1, h2⟩ := (mem_epsilon ha).1 ht
      obtain ⟨row, h3, h4⟩ := (mem_row ha).1 h1
      exact ih.append (.epsilon h3 h4 h2 (.nil _))
  · generalize hw : ([] : List Nat) = w
    intro h
    induction h with
    | nil => exact .refl _
    | epsilon h1 h2 h3 _ ih => exact .head rfl ((mem_epsilon ha).2 ⟨_, (mem_row ha).2 ⟨_, h1, h2⟩, h3⟩) (ih hw)
    | char => cases hw

/-- `modulo_epsilon_state` computes the states reachable by ε-transitions. -/
theorem mem_closure {a : Nfa Q} (ha : a.WF) {qs : List Q} {t : Q} : t ∈ a.closure qs ↔ ∃ q ∈ qs, a.Path q [] t := by
  unfold closure
  obtain ⟨out, ho⟩ := closureLoop_total ha qs
  rw [ho, Option.getD_some, OSet.mem_ofList, explore_exact ho (fun _ _ _ _ _ _ _ _ h => h)]
  simp only [List.mem_reverse, reach_iff ha]

theorem sorted_closure (a : Nfa Q) (qs : List Q) : (a.closure qs).Pairwise (· < ·) := OSet.sorted_ofList

theorem mem_closures {a : Nfa Q} (ha : a.WF) {qs : List Q} {t : Q} : t ∈ a.closures qs ↔ ∃ q ∈ qs, a.Path q [] t := by
  unfold closures
  have : ∀ s : List Q, t ∈ qs.foldl (fun s q => OSet.extend s (a.closure [q])) s ↔ t ∈ s ∨ ∃ q ∈ qs, a.Path q [] t := by
    induction qs with
    | nil => simp
    | cons q qs ih =>
      intro s
      rw [List.foldl_cons, ih, OSet.mem_extend, mem_closure ha]
      simp only [List.mem_singleton, exists_eq_left, List.mem_cons, exists_eq_or_imp]
      tauto
  simpa using this []

/-- The states added for the character `c` by the entries of a row. -/
def Adds (a : Nfa Q) (row : NRow Q) (c : Nat) (t : Q) : Prop :=
  ∃ label qs, (some label, qs) ∈ row ∧ label.Mem c ∧ ∃ q ∈ qs, a.Path q [] t

/-- Some entry of a row has a label that contains `c`. -/
def Applies (row : NRow Q) (c : Nat) : Prop := ∃ label qs, (some label, qs) ∈ row ∧ label.Mem c

/-- The meaning of the table under construction at a character: `n` tells whether there is an entry, and `m` what is in
it. -/
def Table (map : RangeMap (List Q)) (n : Nat → Prop) (m : Nat → Q → Prop) : Prop :=
  map.WF ∧ (∀ c, map.get c = none ↔ ¬ n c) ∧
    ∀ c s, map.get c = some s → s.Pairwise (· < ·) ∧ ∀ t, t ∈ s ↔ m c t

theorem Table.congr {map : RangeMap (List Q)} {n n' : Nat → Prop} {m m' : Nat → Q → Prop} (h : Table map n m)
    (hn : ∀ c, n c ↔ n' c) (hm : ∀ c t, m c t ↔ m' c t) : Table map n' m' :=
  ⟨h.1, fun c => by rw [h.2.1, hn], fun c s hs => ⟨(h.2.2 c s hs).1, fun t => by rw [(h.2.2 c s hs).2, hm]⟩⟩

theorem table_update {map : RangeMap (List Q)} {n : Nat → Prop} {m : Nat → Q → Prop} (h : Table map n m)
    (hm : ∀ c t, m c t → n c) (r : CharRange) (qs : List Q) :
    Table (map.update r fun current => some (OSet.extend (current.getD []) qs)) (fun c => n c ∨ r.Mem c)
      (fun c t => m c t ∨ (r.Mem c ∧ t ∈ qs)) := by
  obtain ⟨h1, h2, h3⟩ := h
  refine ⟨RangeMap.wf_update h1 _ _, fun c => ?_, fun c s hs => ?_⟩
  · rw [RangeMap.get_update h1]
    split
    · rename_i hc
      rw [CharRange.contains_iff] at hc
      simp [hc]
    · rename_i hc
      rw [CharRange.contains_iff] at hc
      rw [h2]
      simp [hc]
  · rw [RangeMap.get_update h1] at hs
    split at hs
    · rename_i hc
      rw [CharRange.contains_iff] at hc
      cases hs
      cases hg : RangeMap.get map c with
      | none =>
        simp only [Option.getD_none]
        refine ⟨OSet.sorted_extend List.Pairwise.nil, fun t => ?_⟩
        rw [OSet.mem_extend]
        have : ¬ m c t := fun hmt => (h2 c).1 hg (hm c t hmt)
        simp [this, hc]
      | some s =>
        simp only [Option.getD_some]
        obtain ⟨hs1, hs2⟩ := h3 c s hg
        refine ⟨OSet.sorted_extend hs1, fun t => ?_⟩
        rw [OSet.mem_extend, hs2]
        simp [hc]
    · rename_i hc
      rw [CharRange.contains_iff] at hc
      obtain ⟨hs1, hs2⟩ := h3 c s hs
      exact ⟨hs1, fun t => by rw [hs2]; simp [hc]⟩

theorem table_updateLabel {a : Nfa Q} (ha : a.WF) {map : RangeMap (List Q)} {n : Nat → Prop} {m : Nat → Q → Prop}
    (h : Table map n m) (hm : ∀ c t, m c t → n c) (label : RangeSet) (qs : List Q) :
    Table (a.updateLabel map label qs) (fun c => n c ∨ label.Mem c)
      (fun c t => m c t ∨ (label.Mem c ∧ ∃ q ∈ qs, a.Path q [] t)) := by
  induction label generalizing map n m with
  | nil => exact h.congr (by simp [RangeSet.mem_nil]) (by simp [RangeSet.mem_nil])
  | cons r label ih =>
    have := ih (table_update h hm r (a.closures qs)) (by
      rintro c t (h | h)
      · exact .inl (hm c t h)
      · exact .inr h.1)
    refine this.congr (fun c => ?_) (fun c t => ?_)
    · rw [RangeSet.mem_cons]; tauto
    · rw [RangeSet.mem_cons, mem_closures ha]
      generalize (∃ q, q ∈ qs ∧ a.Path q [] t) = P
      tauto

theorem table_updateRow {a : Nfa Q} (ha : a.WF) {map : RangeMap (List Q)} {n : Nat → Prop} {m : Nat → Q → Prop}
    (h : Table map n m) (hm : ∀ c t, m c t → n c) (row : NRow Q) :
    Table (a.updateRow map row) (fun c => n c ∨ Applies row c) (fun c t => m c t ∨ a.Adds row c t) := by
  induction row generalizing map n m with
  | nil => exact h.congr (by simp [Applies]) (by simp [Adds])
  | cons e row ih =>
    obtain ⟨l, qs⟩ := e
    cases l with
    | none =>
      refine (ih h hm).congr (fun c => ?_) (fun c t => ?_)
      · simp [Applies]
      · simp [Adds]
    | some label =>
      have := ih (table_updateLabel ha h hm label qs) (by
        rintro c t (h | h)
        · exact .inl (hm c t h)
        · exact .inr h.1)
      refine this.congr (fun c => ?_) (fun c t => ?_)
      · have : Applies ((some label, qs) :: row) c ↔ label.Mem c ∨ Applies row c := by
          unfold Applies
          constructor
          · rintro ⟨l, q, h, hc⟩
            rcases List.mem_cons.1 h with h | h
            · cases h; exact .inl hc
            · exact .inr ⟨l, q, h, hc⟩
          · rintro (h | ⟨l, q, h, hc⟩)
            · exact ⟨_, _, List.mem_cons_self .., h⟩
            · exact ⟨l, q, List.mem_cons_of_mem _ h, hc⟩
        rw [this, or_assoc]
      · have : a.Adds ((some label, qs) :: row) c t ↔ (label.Mem c ∧ ∃ q ∈ qs, a.Path q [] t) ∨ a.Adds row c t := by
          unfold Adds
          constructor
          · rintro ⟨l, q, h, hc⟩
            rcases List.mem_cons.1 h with h | h
            · cases h; exact .inl hc
            · exact .inr ⟨l, q, h, hc⟩
          · rintro (h | ⟨l, q, h, hc⟩)
            · exact ⟨_, _, List.mem_cons_self .., h⟩
            · exact ⟨l, q, List.mem_cons_of_mem _ h, hc⟩
        rw [this, or_assoc]

theorem table_detTransitions {a : Nfa Q} (ha : a.WF) (states : List Q) :
    Table (a.detTransitions states) (fun c => ∃ q ∈ states, Applies (a.row q) c)
      (fun c t => ∃ q ∈ states, a.Adds (a.row q) c t) := by
  have : ∀ (map : RangeMap (List Q)) (n : Nat → Prop) (m : Nat → Q → Prop), Table map n m → (∀ c t, m c t → n c) →
      Table (states.foldl (fun map q => a.updateRow map (a.row q)) map) (fun c => n c ∨ ∃ q ∈ states, Applies (a.row q) c)
        (fun c t => m c t ∨ ∃ q ∈ states, a.Adds (a.row q) c t) := by
    induction states with
    | nil => exact fun map n m h hm => h.congr (by simp) (by simp)
    | cons q states ih =>
      intro map n m h hm
      refine (ih _ _ _ (table_updateRow ha h hm (a.row q)) ?_).congr (fun c => ?_) (fun c t => ?_)
      · rintro c t (h | ⟨l, qs, h1, h2, -⟩)
        · exact .inl (hm c t h)
        · exact .inr ⟨l, qs, h1, h2⟩
      · simp only [List.mem_cons, exists_eq_or_imp]; tauto
      · simp only [List.mem_cons, exists_eq_or_imp]; tauto
  refine (this [] (fun _ => False) (fun _ _ => False) ⟨trivial, by simp [RangeMap.get], by simp [RangeMap.get]⟩
    (fun _ _ h => h)).congr (by simp) (by simp)

/-- The transitions computed for a set of states. -/
theorem mem_detTransitions {a : Nfa Q} (ha : a.WF) {states s : List Q} {r : CharRange}
    (h : (r, s) ∈ a.detTransitions states) {c : Nat} (hc : r.Mem c) :
    s.Pairwise (· < ·) ∧ ∀ t, t ∈ s ↔ ∃ q ∈ states, a.Adds (a.row q) c t := by
  obtain ⟨h1, -, h3⟩ := table_detTransitions ha states
  exact h3 c s ((RangeMap.get_eq_some h1).2 ⟨r, h, hc⟩)

theorem exists_detTransitions {a : Nfa Q} (ha : a.WF) {states : List Q} {c : Nat} {q : Q} (hq : q ∈ states)
    (h : Applies (a.row q) c) : ∃ r s, (r, s) ∈ a.detTransitions states ∧ r.Mem c := by
  obtain ⟨h1, h2, -⟩ := table_detTransitions ha states
  cases hg : RangeMap.get (a.detTransitions states) c with
  | none => exact absurd ⟨q, hq, h⟩ ((h2 c).1 hg)
  | some s =>
    obtain ⟨r, hr, hc⟩ := (RangeMap.get_eq_some h1).1 hg
    exact ⟨r, s, hr, hc⟩

end Nfa

end Verif
