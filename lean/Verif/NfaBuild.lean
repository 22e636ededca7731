import Verif.NfaLemmas

/-! # Building non-deterministic automata -/

set_option linter.unusedSectionVars false
set_option linter.unusedSimpArgs false

namespace Verif

namespace Nfa

variable {Q : Type _} [LinearOrder Q]

/-- There is a transition. -/
def Edge (a : Nfa Q) (q : Q) (l : Option RangeSet) (q' : Q) : Prop :=
  ∃ row qs, (q, row) ∈ a.transitions ∧ (l, qs) ∈ row ∧ q' ∈ qs

/-- The targets of the transitions of a state with a given label. -/
def lookup (t : List (Q × NRow Q)) (q : Q) (l : Option RangeSet) : List Q :=
  (AMap.get ((AMap.get t q).getD []) l).getD []

theorem edge_iff {a : Nfa Q} (ha : a.WF) {q q' : Q} {l : Option RangeSet} : a.Edge q l q' ↔ q' ∈ lookup a.transitions q l := by
  unfold lookup
  constructor
  · rintro ⟨row, qs, h1, h2, h3⟩
    rw [AMap.get_of_mem ha.states h1, Option.getD_some, AMap.get_of_mem (ha.labels _ h1) h2]
    exact h3
  · intro h
    cases h1 : AMap.get a.transitions q with
    | none => simp [h1, AMap.get] at h
    | some row =>
      rw [h1, Option.getD_some] at h
      cases h2 : AMap.get row l with
      | none => simp [h2] at h
      | some qs =>
        rw [h2] at h
        exact ⟨row, qs, AMap.mem_of_get h1, AMap.mem_of_get h2, h⟩

theorem lookup_declare (a : Nfa Q) (t q : Q) (l : Option RangeSet) :
    lookup (a.declareState t).transitions q l = lookup a.transitions q l := by
  unfold lookup declareState
  dsimp only
  rw [AMap.get_modify]
  split
  · rename_i h
    subst h
    simp
  · rfl

theorem lookup_add (a : Nfa Q) (s t q : Q) (l l' : Option RangeSet) :
    lookup (a.add s l t).transitions q l' =
      if q = s ∧ l' = l then OSet.insert t (lookup a.transitions s l) else lookup a.transitions q l' := by
  rw [← lookup_declare a t q l', ← lookup_declare a t s l]
  unfold lookup add
  dsimp only
  rw [AMap.get_modify]
  by_cases hq : q = s
  · subst hq
    simp only [if_true, Option.getD_some, AMap.get_modify, true_and]
    by_cases hl : l' = l
    · subst hl; simp
    · simp [hl]
  · simp [hq]

theorem wf_new : (new : Nfa Q).WF := ⟨List.nodup_nil, by simp [new], by simp [new]⟩

private theorem mem_modify {K V : Type _} [DecidableEq K] {m : List (K × V)} {k : K} {d : V} {f : V → V} {e : K × V}
    (h : e ∈ AMap.modify m k d f) : e ∈ m ∨ e = (k, f d) ∨ ∃ v, (k, v) ∈ m ∧ e = (k, f v) := by
  induction m with
  | nil => simp only [AMap.modify, List.mem_singleton] at h; exact .inr (.inl h)
  | cons x m ih =>
    obtain ⟨k', v⟩ := x
    unfold AMap.modify at h
    split at h
    · rename_i hk
      subst hk
      rcases List.mem_cons.1 h with rfl | h
      · exact .inr (.inr ⟨v, List.mem_cons_self, rfl⟩)
      · exact .inl (List.mem_cons_of_mem _ h)
    · rcases List.mem_cons.1 h with rfl | h
      · exact .inl List.mem_cons_self
      · rcases ih h with h | h | ⟨v', h1, h2⟩
        · exact .inl (List.mem_cons_of_mem _ h)
        · exact .inr (.inl h)
        · exact .inr (.inr ⟨v', List.mem_cons_of_mem _ h1, h2⟩)

theorem wf_declare {a : Nfa Q} (ha : a.WF) (q : Q) : (a.declareState q).WF := by
  have key : ∀ e ∈ (a.declareState q).transitions, e ∈ a.transitions ∨ e = (q, []) := by
    intro e he
    rcases mem_modify he with h | h | ⟨v, h1, h2⟩
    · exact .inl h
    · exact .inr h
    · exact .inl (h2 ▸ h1)
  refine ⟨AMap.unique_modify (d := []) (f := id) ha.states _ .., fun e he => ?_, fun e he => ?_⟩
  · rcases key e he with h | rfl
    · exact ha.labels e h
    · exact List.nodup_nil
  · rcases key e he with h | rfl
    · exact ha.ranges e h
    · simp

theorem wf_add {a : Nfa Q} (ha : a.WF) (s : Q) {l : Option RangeSet} (hl : ∀ label, l = some label → label.WF ∧ label.Valid)
    (t : Q) : (a.add s l t).WF := by
  have hd := wf_declare ha t
  have key : ∀ e ∈ (a.add s l t).transitions, e ∈ (a.declareState t).transitions ∨
      ∃ row, AMap.Unique row ∧ (∀ r ∈ row, ∀ label, r.1 = some label → label.WF ∧ label.Valid) ∧
        e = (s, AMap.modify row l [] (OSet.insert t)) := by
    intro e he
    rcases mem_modify he with h | h | ⟨v, h1, h2⟩
    · exact .inl h
    · exact .inr ⟨[], List.nodup_nil, by simp, h⟩
    · exact .inr ⟨v, hd.labels _ h1, hd.ranges _ h1, h2⟩
  refine ⟨AMap.unique_modify hd.states .., fun e he => ?_, fun e he => ?_⟩
  · rcases key e he with h | ⟨row, h1, -, rfl⟩
    · exact hd.labels e h
    · exact AMap.unique_modify h1 ..
  · rcases key e he with h | ⟨row, -, h2, rfl⟩
    · exact hd.ranges e h
    · intro r hr label hlab
      rcases mem_modify hr with h | rfl | ⟨v, h3, rfl⟩
      · exact h2 r h label hlab
      · exact hl label hlab
      · exact hl label hlab

theorem wf_addInitial {a : Nfa Q} (ha : a.WF) (q : Q) : (a.addInitial q).WF := ⟨ha.states, ha.labels, ha.ranges⟩

theorem wf_addFinal {a : Nfa Q} (ha : a.WF) (q : Q) : (a.addFinal q).WF := ⟨ha.states, ha.labels, ha.ranges⟩

theorem edge_add {a : Nfa Q} (ha : a.WF) (s : Q) {l : Option RangeSet} (hl : ∀ label, l = some label → label.WF ∧ label.Valid)
    (t : Q) {q q' : Q} {l' : Option RangeSet} :
    (a.add s l t).Edge q l' q' ↔ a.Edge q l' q' ∨ (q = s ∧ l' = l ∧ q' = t) := by
  rw [edge_iff (wf_add ha s hl t), edge_iff ha, lookup_add]
  split
  · rename_i h
    obtain ⟨rfl, rfl⟩ := h
    rw [OSet.mem_insert]
    simp only [true_and]
    exact or_comm
  · rename_i h
    constructor
    · exact .inl
    · rintro (h' | ⟨rfl, rfl, -⟩)
      · exact h'
      · exact absurd ⟨rfl, rfl⟩ h

theorem edge_declare {a : Nfa Q} (ha : a.WF) (t : Q) {q q' : Q} {l : Option RangeSet} :
    (a.declareState t).Edge q l q' ↔ a.Edge q l q' := by
  rw [edge_iff (wf_declare ha t), edge_iff ha, lookup_declare]

end Nfa

end Verif
