import Verif.DetProduct
import Verif.DetMinimize

/-!
# Partitions of the states of an automaton
-/

set_option linter.unusedSectionVars false
set_option linter.unusedSimpArgs false

namespace Verif

namespace DetAut

variable {Q L P E : Type _} [DecidableEq Q] [DecidableEq L] [DecidableEq P]

/-- The blocks of `part` are made of the states `vis`, by value of `f`. -/
structure Parts (f : Q → Except E P) (vis : List Q) (part : List (P × List Q)) : Prop where
  unique : AMap.Unique part
  blocks : ∀ p B, (p, B) ∈ part → B ≠ [] ∧ B.Nodup ∧ ∀ s, s ∈ B ↔ s ∈ vis ∧ f s = .ok p
  covers : ∀ s ∈ vis, ∃ p B, (p, B) ∈ part ∧ s ∈ B

theorem Parts.nil (f : Q → Except E P) : Parts f [] [] := ⟨List.nodup_nil, by simp, by simp⟩

theorem Parts.cons {f : Q → Except E P} {vis : List Q} {part : List (P × List Q)} (h : Parts f vis part) {q : Q} (hq : q ∉ vis) {p : P}
    (hp : f q = .ok p) :
    Parts f (q :: vis) (AMap.modify part p [] fun block => if q ∈ block then block else block ++ [q]) := by
  have hu := AMap.unique_modify h.unique p ([] : List Q) fun block => if q ∈ block then block else block ++ [q]
  have key : ∀ p' B, (p', B) ∈ AMap.modify part p [] (fun block => if q ∈ block then block else block ++ [q]) →
      B ≠ [] ∧ B.Nodup ∧ ∀ s, s ∈ B ↔ s ∈ q :: vis ∧ f s = .ok p' := by
    intro p' B hB
    have hB := AMap.get_of_mem hu hB
    rw [AMap.get_modify] at hB
    by_cases hpp : p = p'
    · subst hpp
      rw [if_pos rfl] at hB
      cases hg : AMap.get part p with
      | none =>
        rw [hg] at hB
        simp only [Option.getD_none, List.not_mem_nil, if_false, List.nil_append, Option.some.injEq] at hB
        subst hB
        refine ⟨by simp, by simp, fun s => ?_⟩
        rw [List.mem_singleton, List.mem_cons]
        constructor
        · rintro rfl
          exact ⟨.inl rfl, hp⟩
        · rintro ⟨rfl | hs, hfs⟩
          · rfl
          · obtain ⟨p', B, hB, hsB⟩ := h.covers s hs
            have := ((h.blocks p' B hB).2.2 s).1 hsB
            rw [hfs] at this
            cases this.2
            rw [AMap.get_of_mem h.unique hB] at hg
            cases hg
      | some B' =>
        rw [hg] at hB
        obtain ⟨h1, h2, h3⟩ := h.blocks p B' (AMap.mem_of_get hg)
        have hqB : q ∉ B' := fun hm => hq ((h3 q).1 hm).1
        simp only [Option.getD_some, hqB, if_false, Option.some.injEq] at hB
        subst hB
        refine ⟨by simp, ?_, fun s => ?_⟩
        · rw [List.nodup_append]
          refine ⟨h2, by simp, fun x hx y hy e => ?_⟩
          rw [List.mem_singleton] at hy
          subst hy e
          exact hqB hx
        · rw [List.mem_append, List.mem_singleton, List.mem_cons, h3]
          constructor
          · rintro (⟨h4, h5⟩ | rfl)
            · exact ⟨.inr h4, h5⟩
            · exact ⟨.inl rfl, hp⟩
          · rintro ⟨rfl | h4, h5⟩
            · exact .inr rfl
            · exact .inl ⟨h4, h5⟩
    · rw [if_neg fun e => hpp e.symm] at hB
      obtain ⟨h1, h2, h3⟩ := h.blocks p' B (AMap.mem_of_get hB)
      refine ⟨h1, h2, fun s => ?_⟩
      rw [h3, List.mem_cons]
      constructor
      · exact fun ⟨h4, h5⟩ => ⟨.inr h4, h5⟩
      · rintro ⟨rfl | h4, h5⟩
        · rw [hp] at h5
          cases h5
          exact absurd rfl hpp
        · exact ⟨h4, h5⟩
  refine ⟨hu, key, fun s hs => ?_⟩
  have : ∃ p', f s = .ok p' ∧ ∃ B, AMap.get (AMap.modify part p [] (fun block => if q ∈ block then block else block ++ [q])) p' = some B := by
    rcases List.mem_cons.1 hs with rfl | hs
    · exact ⟨p, hp, by rw [AMap.get_modify, if_pos rfl]; exact ⟨_, rfl⟩⟩
    · obtain ⟨p', B, hB, hsB⟩ := h.covers s hs
      refine ⟨p', (((h.blocks p' B hB).2.2 s).1 hsB).2, ?_⟩
      rw [AMap.get_modify]
      split
      · exact ⟨_, rfl⟩
      · exact ⟨B, AMap.get_of_mem h.unique hB⟩
  obtain ⟨p', hp', B, hB⟩ := this
  have hB := AMap.mem_of_get hB
  exact ⟨p', B, hB, ((key p' B hB).2.2 s).2 ⟨hs, hp'⟩⟩

/-- The outcome of a part of the traversal, compared with the visited states. -/
def Mirrors (f : Q → Except E P) (v : Option (List Q)) : Out E (List Q × List (P × List Q)) → Prop
  | .ok (vis', part') => v = some vis' ∧ Parts f vis' part'
  | .err e => ∀ vis', v = some vis' → ∃ s ∈ vis', f s = .error e
  | .panic => False
  | .fuel => v = none

theorem foldlM_cong (a : DetAut Q L) (f : Q → Except E P) (n : Nat)
    (ih : ∀ q vis part, Parts f vis part → Mirrors f (a.visitFrom n q vis) (a.tryPartitionFrom f n q (vis, part)))
    (l : List (L × Q)) (vis : List Q) (part : List (P × List Q)) (h : Parts f vis part) :
    Mirrors f (l.foldlM (fun vis e => a.visitFrom n e.2 vis) vis) (l.foldlM (fun s e => a.tryPartitionFrom f n e.2 s) (vis, part)) := by
  induction l generalizing vis part with
  | nil => exact ⟨rfl, h⟩
  | cons e l ihl =>
    simp only [List.foldlM_cons]
    have h1 := ih e.2 vis part h
    cases hr : a.tryPartitionFrom f n e.2 (vis, part) with
    | ok s =>
      obtain ⟨vis', part'⟩ := s
      rw [hr] at h1
      rw [h1.1]
      exact ihl vis' part' h1.2
    | err err =>
      rw [hr] at h1
      simp only [Out.bind_eq, Out.bind_err]
      intro vis' hv
      obtain ⟨v, hv1, hv2⟩ := Option.bind_eq_some_iff.1 hv
      obtain ⟨s, hs, he⟩ := h1 v hv1
      refine ⟨s, ?_, he⟩
      exact (visits_foldl a (a.visitFrom n) (fun q vis out => visits_visitFrom a n q vis out) _ _ _ hv2).keep s hs
    | panic => rw [hr] at h1; exact h1
    | fuel =>
      rw [hr] at h1
      simp only [Out.bind_eq, Out.bind_fuel]
      rw [show a.visitFrom n e.2 vis = none from h1]
      rfl

theorem tryPartitionFrom_follows (a : DetAut Q L) (f : Q → Except E P) (n : Nat) (q : Q) (vis : List Q) (part : List (P × List Q))
    (h : Parts f vis part) : Mirrors f (a.visitFrom n q vis) (a.tryPartitionFrom f n q (vis, part)) := by
  induction n generalizing q vis part with
  | zero => rfl
  | succ n ih =>
    unfold visitFrom tryPartitionFrom
    by_cases hq : q ∈ vis
    · rw [if_pos hq, if_pos hq]
      exact ⟨rfl, h⟩
    · rw [if_neg hq, if_neg hq]
      cases hf : f q with
      | error e =>
        intro vis' hv
        exact ⟨q, (visits_foldl a (a.visitFrom n) (fun q vis out => visits_visitFrom a n q vis out) _ _ _ hv).keep q (.head _), hf⟩
      | ok p => exact foldlM_cong a f n ih _ _ _ (h.cons hq hf)

/-- An error is that of a state that can be reached. -/
theorem tryPartitionFrom_err (a : DetAut Q L) (f : Q → Except E P) (n : Nat) (q : Q) (st : List Q × List (P × List Q)) (e : E)
    (h : a.tryPartitionFrom f n q st = .err e) : ∃ s, Reach (fun q => some ((a.row q).map Prod.snd)) q s ∧ f s = .error e := by
  induction n generalizing q st with
  | zero => cases h
  | succ n ih =>
    obtain ⟨vis, part⟩ := st
    unfold tryPartitionFrom at h
    split at h
    · cases h
    · cases hf : f q with
      | error e' =>
        rw [hf] at h
        cases h
        exact ⟨q, .refl _, hf⟩
      | ok p =>
        rw [hf] at h
        have fold : ∀ (l : List (L × Q)) st, l.foldlM (fun s e => a.tryPartitionFrom f n e.2 s) st = .err e →
            ∃ x ∈ l, ∃ s, Reach (fun q => some ((a.row q).map Prod.snd)) x.2 s ∧ f s = .error e := by
          intro l
          induction l with
          | nil => intro st h; cases h
          | cons x l ihl =>
            intro st h
            simp only [List.foldlM_cons] at h
            cases hr : a.tryPartitionFrom f n x.2 st with
            | ok st' =>
              rw [hr] at h
              obtain ⟨y, hy, h⟩ := ihl st' h
              exact ⟨y, .tail _ hy, h⟩
            | err e' =>
              rw [hr] at h
              cases h
              exact ⟨x, .head _, ih x.2 st hr⟩
            | panic => rw [hr] at h; cases h
            | fuel => rw [hr] at h; cases h
        obtain ⟨x, hx, s, hs, he⟩ := fold _ _ h
        exact ⟨s, .head rfl (List.mem_map.2 ⟨x, hx, rfl⟩) hs, he⟩

theorem visitFrom_spec {a : DetAut Q L} (ha : TableWF a.transitions) {n : Nat} {vis : List Q} (h : a.visitFrom n a.initial [] = some vis)
    (s : Q) : s ∈ vis ↔ Relation.ReflTransGen a.Follows a.initial s := by
  have := (selectStates_spec (f := fun _ => true) (out := vis) ha (n := n) (by simp [selectStates, h])).2 s
  simpa using this

end DetAut

end Verif
