import Verif.DetLemmas

/-! # Minimization: the partition is stable -/

set_option linter.unusedSectionVars false
set_option linter.unusedSimpArgs false

namespace Verif

namespace DetAut

variable {Q L : Type _} [DecidableEq Q] [DecidableEq L]

/-- The state `x` has a transition labelled `l` into `A`. -/
def Hit (a : DetAut Q L) (x : Q) (l : L) (A : List Q) : Prop := ∃ t, (x, l, t) ∈ triples a.transitions ∧ t ∈ A

/-- Blocks are disjoint. -/
def Disjoint (P : List (List Q)) : Prop := ∀ B ∈ P, ∀ B' ∈ P, ∀ q, q ∈ B → q ∈ B' → B = B'

/-- Two states of a block that are not told apart by the blocks to process are not told apart by the partition. `S` holds
of the further blocks (with a label) that are being processed. -/
def Sep (a : DetAut Q L) (S : List Q → L → Prop) (P W : List (List Q)) : Prop :=
  ∀ B ∈ P, ∀ x ∈ B, ∀ y ∈ B, ∀ l, (∀ A ∈ W, a.Hit x l A ↔ a.Hit y l A) → (∀ A, S A l → (a.Hit x l A ↔ a.Hit y l A)) →
    ∀ B' ∈ P, a.Hit x l B' ↔ a.Hit y l B'

/-- `P'` refines `P`: each block is included in a block, and no state is lost. -/
def Refines (P' P : List (List Q)) : Prop :=
  (∀ B' ∈ P', ∃ B ∈ P, ∀ q ∈ B', q ∈ B) ∧ ∀ B ∈ P, ∀ q ∈ B, ∃ B' ∈ P', q ∈ B'

theorem Refines.rfl {P : List (List Q)} : Refines P P := ⟨fun B h => ⟨B, h, fun _ h => h⟩, fun B h q hq => ⟨B, h, hq⟩⟩

theorem Refines.trans {P P' P'' : List (List Q)} (h : Refines P'' P') (h' : Refines P' P) : Refines P'' P := by
  refine ⟨fun B hB => ?_, fun B hB q hq => ?_⟩
  · obtain ⟨B', hB', h1⟩ := h.1 B hB
    obtain ⟨B'', hB'', h2⟩ := h'.1 B' hB'
    exact ⟨B'', hB'', fun q hq => h2 q (h1 q hq)⟩
  · obtain ⟨B', hB', h1⟩ := h'.2 B hB q hq
    exact h.2 B' hB' q h1

/-- All or none of the states of the block are sources. -/
def Homogeneous (sources : List Q) (B : List Q) : Prop := ∀ x ∈ B, ∀ y ∈ B, x ∈ sources ↔ y ∈ sources

/-- What a refinement step preserves. -/
structure Inv (a : DetAut Q L) (S : List Q → L → Prop) (P W : List (List Q)) : Prop where
  disjoint : Disjoint P
  sep : a.Sep S P W
  nodup : P.Nodup

/-- A measure that decreases when a block is split. -/
def weight (P W : List (List Q)) : Nat := W.length + ((P.map List.length).sum - (P.filter fun B => !B.isEmpty).length)

theorem split_mem {sources B : List Q} {q : Q} : q ∈ B ↔
    q ∈ (B.filter fun q => decide (q ∈ sources)) ∨ q ∈ (B.filter fun q => decide (q ∉ sources)) := by
  simp only [List.mem_filter, decide_eq_true_eq]
  tauto

theorem hit_split (a : DetAut Q L) (sources B : List Q) (x : Q) (l : L) : a.Hit x l B ↔
    a.Hit x l (B.filter fun q => decide (q ∈ sources)) ∨ a.Hit x l (B.filter fun q => decide (q ∉ sources)) := by
  unfold Hit
  constructor
  · rintro ⟨t, h1, h2⟩
    rcases split_mem.1 h2 with h | h
    · exact .inl ⟨t, h1, h⟩
    · exact .inr ⟨t, h1, h⟩
  · rintro (⟨t, h1, h2⟩ | ⟨t, h1, h2⟩)
    · exact ⟨t, h1, split_mem.2 (.inl h2)⟩
    · exact ⟨t, h1, split_mem.2 (.inr h2)⟩

theorem hit_excl {a : DetAut Q L} (ha : TableWF a.transitions) {sources B : List Q} {x : Q} {l : L}
    (h1 : a.Hit x l (B.filter fun q => decide (q ∈ sources))) (h2 : a.Hit x l (B.filter fun q => decide (q ∉ sources))) :
    False := by
  obtain ⟨t, h3, h4⟩ := h1
  obtain ⟨t', h5, h6⟩ := h2
  have := triples_functional ha h3 h5
  subst this
  simp only [List.mem_filter, decide_eq_true_eq] at h4 h6
  exact h6.2 h4.2

private theorem other_half {i d i' d' : Prop} (h : i ∨ d ↔ i' ∨ d') (h1 : i → d → False) (h2 : i' → d' → False) (h3 : d ↔ d') :
    i ↔ i' := by
  tauto

theorem splitBlock_spec {a : DetAut Q L} (ha : TableWF a.transitions) {S : List Q → L → Prop} {sources : List Q}
    {P W : List (List Q)} (h : a.Inv S P W) {y : List Q} (hy : y ∈ P) :
    a.Inv S (splitBlock sources (P, W) y).1 (splitBlock sources (P, W) y).2 ∧
    Refines (splitBlock sources (P, W) y).1 P ∧
    (∀ B ∈ (splitBlock sources (P, W) y).1, (B ∈ P ∧ B ≠ y) ∨ Homogeneous sources B) ∧
    (∀ B ∈ P, B ≠ y → B ∈ (splitBlock sources (P, W) y).1) ∧
    weight (splitBlock sources (P, W) y).1 (splitBlock sources (P, W) y).2 ≤ weight P W := by
  unfold splitBlock
  dsimp only
  split
  · rename_i he
    refine ⟨h, .rfl, fun B hB => ?_, fun B hB _ => hB, Nat.le_refl _⟩
    by_cases hBy : B = y
    · right
      subst hBy
      rw [Bool.or_eq_true, List.isEmpty_iff, List.isEmpty_iff] at he
      rcases he with he | he
      · intro x hx z hz
        have h1 : ∀ x ∈ B, x ∉ sources := by simpa [List.filter_eq_nil_iff] using he
        simp [h1 x hx, h1 z hz]
      · intro x hx z hz
        have h1 : ∀ x ∈ B, x ∈ sources := by simpa [List.filter_eq_nil_iff] using he
        simp [h1 x hx, h1 z hz]
    · exact .inl ⟨hB, hBy⟩
  · rename_i he
    simp only [Bool.or_eq_true, List.isEmpty_iff, not_or] at he
    obtain ⟨hI, hD⟩ := he
    generalize hIdef : (y.filter fun q => decide (q ∈ sources)) = I at *
    generalize hDdef : (y.filter fun q => decide (q ∉ sources)) = D at *
    have hmem : ∀ q, q ∈ y ↔ q ∈ I ∨ q ∈ D := by
      intro q; rw [← hIdef, ← hDdef]; exact split_mem
    have hdis : ∀ q, q ∈ I → q ∈ D → False := by
      intro q h1 h2
      rw [← hIdef] at h1
      rw [← hDdef] at h2
      simp only [List.mem_filter, decide_eq_true_eq] at h1 h2
      exact h2.2 h1.2
    have hIy : ∀ q ∈ I, q ∈ y := fun q hq => (hmem q).2 (.inl hq)
    have hDy : ∀ q ∈ D, q ∈ y := fun q hq => (hmem q).2 (.inr hq)
    obtain ⟨i, hi⟩ := List.exists_mem_of_ne_nil _ hI
    obtain ⟨d, hd⟩ := List.exists_mem_of_ne_nil _ hD
    have hIy' : I ≠ y := by rintro rfl; exact hdis d (hDy d hd) hd
    have hDy' : D ≠ y := by rintro rfl; exact hdis i hi (hIy i hi)
    have hIP : I ∉ P := fun hm => hIy' (h.disjoint I hm y hy i hi (hIy i hi))
    have hDP : D ∉ P := fun hm => hDy' (h.disjoint D hm y hy d hd (hDy d hd))
    have hID : I ≠ D := by rintro rfl; exact hdis i hi hi
    have hmemP : ∀ B, B ∈ P.filter (fun b => decide (b ≠ y)) ++ [I, D] ↔ (B ∈ P ∧ B ≠ y) ∨ B = I ∨ B = D := by
      intro B
      simp [List.mem_append, List.mem_filter]
    generalize hWdef : (if y ∈ W then W.filter (fun b => decide (b ≠ y)) ++ [I, D]
      else if I.length ≤ D.length then W ++ [I] else W ++ [D]) = W'
    have hW1 : ∀ A ∈ W, A ≠ y → A ∈ W' := by
      intro A hA hne
      rw [← hWdef]
      split
      · exact List.mem_append_left _ (List.mem_filter.2 ⟨hA, by simpa using hne⟩)
      · split <;> exact List.mem_append_left _ hA
    have hW2 : y ∈ W → I ∈ W' ∧ D ∈ W' := by
      intro hyW
      rw [← hWdef, if_pos hyW]
      simp
    have hW3 : I ∈ W' ∨ D ∈ W' := by
      rw [← hWdef]
      split
      · simp
      · split <;> simp
    have hWlen : W'.length ≤ W.length + 1 := by
      rw [← hWdef]
      split
      · rename_i hyW
        have : (W.filter fun b => decide (b ≠ y)).length < W.length := by
          rw [← List.countP_eq_length_filter]
          have h1 : ¬ (W.countP (fun b => decide (b ≠ y)) = W.length) := by
            rw [List.countP_eq_length]
            intro hall
            simpa using hall y hyW
          have h2 : W.countP (fun b => decide (b ≠ y)) ≤ W.length := List.countP_le_length
          omega
        simp only [List.length_append, List.length_cons, List.length_nil]
        omega
      · split <;> simp
    refine ⟨⟨?_, ?_, ?_⟩, ⟨?_, ?_⟩, ?_, ?_, ?_⟩
    · -- disjoint
      intro B hB B' hB' q hq hq'
      rw [hmemP] at hB hB'
      rcases hB with ⟨hB, hBy⟩ | rfl | rfl <;> rcases hB' with ⟨hB', hBy'⟩ | rfl | rfl
      · exact h.disjoint B hB B' hB' q hq hq'
      · exact absurd (h.disjoint B hB y hy q hq (hIy q hq')) hBy
      · exact absurd (h.disjoint B hB y hy q hq (hDy q hq')) hBy
      · exact absurd (h.disjoint B' hB' y hy q hq' (hIy q hq)) hBy'
      · rfl
      · exact (hdis q hq hq').elim
      · exact absurd (h.disjoint B' hB' y hy q hq' (hDy q hq)) hBy'
      · exact (hdis q hq' hq).elim
      · rfl
    · -- sep
      intro B hB x hx z hz l hWsame hSsame B' hB'
      have hold : ∃ B₀ ∈ P, x ∈ B₀ ∧ z ∈ B₀ := by
        rcases (hmemP B).1 hB with ⟨hB, -⟩ | rfl | rfl
        · exact ⟨B, hB, hx, hz⟩
        · exact ⟨y, hy, hIy x hx, hIy z hz⟩
        · exact ⟨y, hy, hDy x hx, hDy z hz⟩
      obtain ⟨B₀, hB₀, hx₀, hz₀⟩ := hold
      have hsplit : ∀ q, a.Hit q l y ↔ a.Hit q l I ∨ a.Hit q l D := by
        intro q; rw [← hIdef, ← hDdef]; exact hit_split a sources y q l
      have hexcl : ∀ q, a.Hit q l I → a.Hit q l D → False := by
        intro q; rw [← hIdef, ← hDdef]; exact hit_excl ha
      have hall := h.sep B₀ hB₀ x hx₀ z hz₀ l (by
        intro A hA
        by_cases hAy : A = y
        · subst hAy
          rw [hsplit, hsplit, hWsame I (hW2 hA).1, hWsame D (hW2 hA).2]
        · exact hWsame A (hW1 A hA hAy)) hSsame
      have hyy := hall y hy
      have hx1 := hexcl x
      have hz1 := hexcl z
      rw [hsplit, hsplit] at hyy
      rcases (hmemP B').1 hB' with ⟨hB', -⟩ | rfl | rfl
      · exact hall B' hB'
      · rcases hW3 with h3 | h3
        · exact hWsame _ h3
        · exact other_half hyy hx1 hz1 (hWsame _ h3)
      · rcases hW3 with h3 | h3
        · exact other_half (or_comm.trans (hyy.trans or_comm)) (fun p q => hx1 q p) (fun p q => hz1 q p) (hWsame _ h3)
        · exact hWsame _ h3
    · -- nodup
      rw [List.nodup_append]
      refine ⟨h.nodup.filter _, by simp [hID], ?_⟩
      intro A hA B hB hAB
      subst hAB
      have hAP := (List.mem_filter.1 hA).1
      simp only [List.mem_cons, List.not_mem_nil, or_false] at hB
      rcases hB with rfl | rfl
      · exact hIP hAP
      · exact hDP hAP
    · intro B hB
      rcases (hmemP B).1 hB with ⟨hB, -⟩ | rfl | rfl
      · exact ⟨B, hB, fun _ h => h⟩
      · exact ⟨y, hy, hIy⟩
      · exact ⟨y, hy, hDy⟩
    · intro B hB q hq
      by_cases hBy : B = y
      · subst hBy
        rcases (hmem q).1 hq with h1 | h1
        · exact ⟨I, (hmemP I).2 (.inr (.inl rfl)), h1⟩
        · exact ⟨D, (hmemP D).2 (.inr (.inr rfl)), h1⟩
      · exact ⟨B, (hmemP B).2 (.inl ⟨hB, hBy⟩), hq⟩
    · intro B hB
      rcases (hmemP B).1 hB with hB | rfl | rfl
      · exact .inl hB
      · right
        intro x hx z hz
        rw [← hIdef] at hx hz
        simp only [List.mem_filter, decide_eq_true_eq] at hx hz
        simp [hx.2, hz.2]
      · right
        intro x hx z hz
        rw [← hDdef] at hx hz
        simp only [List.mem_filter, decide_eq_true_eq] at hx hz
        simp [hx.2, hz.2]
    · intro B hB hBy
      exact (hmemP B).2 (.inl ⟨hB, hBy⟩)
    · -- weight
      have hperm : P.Perm (y :: P.filter fun b => decide (b ≠ y)) := by
        have h1 : P.Perm (y :: P.erase y) := List.perm_cons_erase hy
        rw [h.nodup.erase_eq_filter] at h1
        have : (P.filter fun b => b != y) = P.filter fun b => decide (b ≠ y) := by
          apply List.filter_congr
          intro b _
          simp [bne, Bool.beq_eq_decide_eq]
        rwa [this] at h1
      have hsum : (P.map List.length).sum = y.length + ((P.filter fun b => decide (b ≠ y)).map List.length).sum := by
        rw [(hperm.map List.length).sum_nat, List.map_cons, List.sum_cons]
      have hcount : (P.filter fun B => !B.isEmpty).length =
          1 + ((P.filter fun b => decide (b ≠ y)).filter fun B => !B.isEmpty).length := by
        rw [(hperm.filter _).length_eq, List.filter_cons_of_pos]
        · simp only [List.length_cons]; omega
        · have : y ≠ [] := by rintro rfl; simpa using hIy i hi
          simpa using this
      have hlen : I.length + D.length = y.length := by
        rw [← hIdef, ← hDdef]
        have h1 := List.length_eq_length_filter_add (l := y) (fun q => decide (q ∈ sources))
        have h2 : (y.filter fun q => decide (q ∉ sources)) = y.filter fun q => !decide (q ∈ sources) := by
          apply List.filter_congr
          intro b _
          simp
        rw [h2]
        omega
      have hne : ∀ (R : List (List Q)), (R.filter fun B => !B.isEmpty).length ≤ (R.map List.length).sum := by
        intro R
        induction R with
        | nil => simp
        | cons B R ih =>
          cases B with
          | nil => simpa using ih
          | cons b B =>
            simp only [List.filter_cons, List.isEmpty_cons, Bool.not_false, if_true, List.length_cons, List.map_cons,
              List.sum_cons]
            omega
      have hne' := hne (P.filter fun b => decide (b ≠ y))
      have hI1 : 0 < I.length := List.length_pos_of_ne_nil hI
      have hD1 : 0 < D.length := List.length_pos_of_ne_nil hD
      unfold weight
      rw [hsum, hcount]
      simp only [List.map_append, List.map_cons, List.map_nil, List.sum_append, List.sum_cons, List.sum_nil, List.filter_append,
        List.length_append]
      have hf : ([I, D].filter fun B => !B.isEmpty).length = 2 := by
        rw [List.filter_cons_of_pos (by simpa using hI), List.filter_cons_of_pos (by simpa using hD)]
        rfl
      rw [hf]
      omega

theorem splitAll_spec {a : DetAut Q L} (ha : TableWF a.transitions) {S : List Q → L → Prop} {sources : List Q}
    {P W : List (List Q)} (h : a.Inv S P W) :
    a.Inv S (splitAll sources (P, W)).1 (splitAll sources (P, W)).2 ∧
    Refines (splitAll sources (P, W)).1 P ∧ (∀ B ∈ (splitAll sources (P, W)).1, Homogeneous sources B) ∧
    weight (splitAll sources (P, W)).1 (splitAll sources (P, W)).2 ≤ weight P W := by
  have key : ∀ (ys : List (List Q)) (P' W' : List (List Q)), a.Inv S P' W' → ys.Nodup → (∀ y ∈ ys, y ∈ P') →
      (∀ B ∈ P', B ∈ ys ∨ Homogeneous sources B) →
      a.Inv S (ys.foldl (splitBlock sources) (P', W')).1 (ys.foldl (splitBlock sources) (P', W')).2 ∧
      Refines (ys.foldl (splitBlock sources) (P', W')).1 P' ∧
      (∀ B ∈ (ys.foldl (splitBlock sources) (P', W')).1, Homogeneous sources B) ∧
      weight (ys.foldl (splitBlock sources) (P', W')).1 (ys.foldl (splitBlock sources) (P', W')).2 ≤ weight P' W' := by
    intro ys
    induction ys with
    | nil =>
      intro P' W' hinv _ _ hhom
      exact ⟨hinv, .rfl, fun B hB => (hhom B hB).resolve_left (by simp), Nat.le_refl _⟩
    | cons y ys ih =>
      intro P' W' hinv hnd hsub hhom
      rw [List.nodup_cons] at hnd
      rw [List.forall_mem_cons] at hsub
      obtain ⟨h1, h2, h3, h4, h5⟩ := splitBlock_spec ha (sources := sources) hinv hsub.1
      have hne : ∀ z ∈ ys, z ≠ y := by rintro z hz rfl; exact hnd.1 hz
      obtain ⟨h6, h7, h8, h9⟩ := ih (splitBlock sources (P', W') y).1 (splitBlock sources (P', W') y).2 h1 hnd.2
        (fun z hz => h4 z (hsub.2 z hz) (hne z hz)) (by
          intro B hB
          rcases h3 B hB with ⟨hBP, hBy⟩ | hh
          · rcases hhom B hBP with hh | hh
            · rcases List.mem_cons.1 hh with rfl | hh
              · exact absurd rfl hBy
              · exact .inl hh
            · exact .inr hh
          · exact .inr hh)
      exact ⟨h6, h7.trans h2, h8, Nat.le_trans h9 h5⟩
  exact key P P W h h.nodup (fun _ h => h) (fun B hB => .inl hB)

/-- The sources of the transitions into a block. -/
theorem sourcesByLabel_spec (a : DetAut Q L) (block : List Q) :
    AMap.Unique (a.sourcesByLabel block) ∧
    ∀ l x, a.Hit x l block ↔ ∃ ss, (l, ss) ∈ a.sourcesByLabel block ∧ x ∈ ss := by
  have key : ∀ (ts : List (Q × L × Q)) (m : List (L × List Q)), AMap.Unique m →
      AMap.Unique (ts.foldl (fun m t =>
        if t.2.2 ∈ block then AMap.modify m t.2.1 [] (fun s => if t.1 ∈ s then s else s ++ [t.1]) else m) m) ∧
      ∀ l x, (∃ ss, AMap.get (ts.foldl (fun m t =>
        if t.2.2 ∈ block then AMap.modify m t.2.1 [] (fun s => if t.1 ∈ s then s else s ++ [t.1]) else m) m) l = some ss ∧
        x ∈ ss) ↔ (∃ ss, AMap.get m l = some ss ∧ x ∈ ss) ∨ ∃ t, (x, l, t) ∈ ts ∧ t ∈ block := by
    intro ts
    induction ts with
    | nil => exact fun m hu => ⟨hu, fun l x => by simp⟩
    | cons t ts ih =>
      intro m hu
      obtain ⟨s, l₀, q⟩ := t
      rw [List.foldl_cons]
      by_cases hq : q ∈ block
      · simp only [hq, if_true]
        obtain ⟨h1, h2⟩ := ih _ (AMap.unique_modify hu l₀ [] fun ss => if s ∈ ss then ss else ss ++ [s])
        refine ⟨h1, fun l x => ?_⟩
        rw [h2]
        have hmod : (∃ ss, AMap.get (AMap.modify m l₀ [] fun ss => if s ∈ ss then ss else ss ++ [s]) l = some ss ∧ x ∈ ss) ↔
            (∃ ss, AMap.get m l = some ss ∧ x ∈ ss) ∨ (x = s ∧ l = l₀) := by
          rw [AMap.get_modify]
          by_cases hl : l = l₀
          · subst hl
            simp only [if_true, Option.some.injEq, exists_eq_left', and_true]
            cases hg : AMap.get m l with
            | none => simp
            | some ss =>
              simp only [Option.getD_some, Option.some.injEq, exists_eq_left']
              split
              · rename_i hs
                constructor
                · exact .inl
                · rintro (h | rfl)
                  · exact h
                  · exact hs
              · simp
          · simp [hl]
        rw [hmod, or_assoc]
        refine or_congr_right ?_
        simp only [List.mem_cons, Prod.mk.injEq]
        constructor
        · rintro (⟨rfl, rfl⟩ | ⟨t, h3, h4⟩)
          · exact ⟨q, .inl ⟨rfl, rfl, rfl⟩, hq⟩
          · exact ⟨t, .inr h3, h4⟩
        · rintro ⟨t, ⟨rfl, rfl, rfl⟩ | h3, h4⟩
          · exact .inl ⟨rfl, rfl⟩
          · exact .inr ⟨t, h3, h4⟩
      · simp only [hq, if_false]
        obtain ⟨h1, h2⟩ := ih m hu
        refine ⟨h1, fun l x => ?_⟩
        rw [h2]
        refine or_congr_right ?_
        simp only [List.mem_cons, Prod.mk.injEq]
        constructor
        · rintro ⟨t, h3, h4⟩; exact ⟨t, .inr h3, h4⟩
        · rintro ⟨t, ⟨rfl, rfl, rfl⟩ | h3, h4⟩
          · exact absurd h4 hq
          · exact ⟨t, h3, h4⟩
  obtain ⟨h1, h2⟩ := key (triples a.transitions) [] List.nodup_nil
  refine ⟨h1, fun l x => ?_⟩
  have h3 := h2 l x
  simp only [AMap.get, reduceCtorEq, false_and, exists_false, false_or] at h3
  unfold Hit
  rw [← h3]
  unfold sourcesByLabel
  constructor
  · rintro ⟨ss, h4, h5⟩; exact ⟨ss, AMap.mem_of_get h4, h5⟩
  · rintro ⟨ss, h4, h5⟩; exact ⟨ss, AMap.get_of_mem h1 h4, h5⟩

/-- One iteration of the main loop. -/
theorem refine_step {a : DetAut Q L} (ha : TableWF a.transitions) {P W : List (List Q)} {block : List Q}
    (h : a.Inv (fun _ _ => False) P (block :: W)) :
    let pw := (a.sourcesByLabel block).foldl (fun pw e => splitAll e.2 pw) (P, W)
    a.Inv (fun _ _ => False) pw.1 pw.2 ∧ Refines pw.1 P ∧ weight pw.1 pw.2 < weight P (block :: W) := by
  obtain ⟨hu, hsrc⟩ := sourcesByLabel_spec a block
  have hInv0 : a.Inv (fun A _ => A = block) P W := by
    refine ⟨h.disjoint, ?_, h.nodup⟩
    intro B hB x hx y hy l hW hS
    refine h.sep B hB x hx y hy l ?_ (fun _ h => h.elim)
    rw [List.forall_mem_cons]
    exact ⟨hS block rfl, hW⟩
  have key : ∀ (es : List (L × List Q)) (P' W' : List (List Q)), a.Inv (fun A _ => A = block) P' W' →
      a.Inv (fun A _ => A = block) (es.foldl (fun pw e => splitAll e.2 pw) (P', W')).1
        (es.foldl (fun pw e => splitAll e.2 pw) (P', W')).2 ∧
      Refines (es.foldl (fun pw e => splitAll e.2 pw) (P', W')).1 P' ∧
      (∀ e ∈ es, ∀ B ∈ (es.foldl (fun pw e => splitAll e.2 pw) (P', W')).1, Homogeneous e.2 B) ∧
      weight (es.foldl (fun pw e => splitAll e.2 pw) (P', W')).1 (es.foldl (fun pw e => splitAll e.2 pw) (P', W')).2 ≤
        weight P' W' := by
    intro es
    induction es with
    | nil => exact fun P' W' hi => ⟨hi, .rfl, by simp, Nat.le_refl _⟩
    | cons e es ih =>
      intro P' W' hi
      obtain ⟨h1, h2, h3, h4⟩ := splitAll_spec ha (sources := e.2) hi
      obtain ⟨h5, h6, h7, h8⟩ := ih (splitAll e.2 (P', W')).1 (splitAll e.2 (P', W')).2 h1
      refine ⟨h5, h6.trans h2, ?_, Nat.le_trans h8 h4⟩
      rw [List.forall_mem_cons]
      refine ⟨fun B hB => ?_, h7⟩
      obtain ⟨B', hB', hsub⟩ := h6.1 B hB
      exact fun x hx y hy => h3 B' hB' x (hsub x hx) y (hsub y hy)
  obtain ⟨h1, h2, h3, h4⟩ := key (a.sourcesByLabel block) P W hInv0
  refine ⟨⟨h1.disjoint, ?_, h1.nodup⟩, h2, ?_⟩
  · intro B hB x hx y hy l hW _
    refine h1.sep B hB x hx y hy l hW ?_
    rintro A rfl
    rw [hsrc, hsrc]
    constructor
    · rintro ⟨ss, h5, h6⟩; exact ⟨ss, h5, (h3 _ h5 B hB x hx y hy).1 h6⟩
    · rintro ⟨ss, h5, h6⟩; exact ⟨ss, h5, (h3 _ h5 B hB x hx y hy).2 h6⟩
  · refine Nat.lt_of_le_of_lt h4 ?_
    unfold weight
    simp only [List.length_cons]
    omega

/-- The final partition is stable and refines the given one. -/
theorem refinePartition_spec {a : DetAut Q L} (ha : TableWF a.transitions) {n : Nat} {P W P' : List (List Q)}
    (h : a.Inv (fun _ _ => False) P W) (hr : a.refinePartition n P W = some P') :
    a.Inv (fun _ _ => False) P' [] ∧ Refines P' P := by
  induction n generalizing P W with
  | zero =>
    cases W with
    | nil => cases hr; exact ⟨h, .rfl⟩
    | cons => cases hr
  | succ n ih =>
    cases W with
    | nil => cases hr; exact ⟨h, .rfl⟩
    | cons block W =>
      obtain ⟨h1, h2, -⟩ := refine_step ha h
      obtain ⟨h3, h4⟩ := ih h1 hr
      exact ⟨h3, h4.trans h2⟩

theorem refinePartition_total {a : DetAut Q L} (ha : TableWF a.transitions) {n : Nat} {P W : List (List Q)}
    (h : a.Inv (fun _ _ => False) P W) (hn : weight P W ≤ n) : ∃ P', a.refinePartition n P W = some P' := by
  induction n generalizing P W with
  | zero =>
    cases W with
    | nil => exact ⟨P, rfl⟩
    | cons => simp [weight] at hn
  | succ n ih =>
    cases W with
    | nil => exact ⟨P, rfl⟩
    | cons block W =>
      obtain ⟨h1, -, h2⟩ := refine_step ha h
      exact ih h1 (by omega)

/-- The partition has the initial state and the ends of all the transitions. -/
def Covers (a : DetAut Q L) (P : List (List Q)) : Prop :=
  (∃ B ∈ P, a.initial ∈ B) ∧ ∀ t ∈ triples a.transitions, (∃ B ∈ P, t.1 ∈ B) ∧ ∃ B ∈ P, t.2.2 ∈ B

theorem inv_start {a : DetAut Q L} {P : List (List Q)} (hd : Disjoint P) (hn : P.Nodup) : a.Inv (fun _ _ => False) P P :=
  ⟨hd, fun _ _ _ _ _ _ _ h _ => h, hn⟩

theorem Covers.refines {a : DetAut Q L} {P P' : List (List Q)} (h : a.Covers P) (hr : Refines P' P) : a.Covers P' := by
  have key : ∀ q, (∃ B ∈ P, q ∈ B) → ∃ B ∈ P', q ∈ B := fun q ⟨B, hB, hq⟩ => hr.2 B hB q hq
  exact ⟨key _ h.1, fun t ht => ⟨key _ (h.2 t ht).1, key _ (h.2 t ht).2⟩⟩

theorem blockOf_of_mem {P : List (List Q)} (hd : Disjoint P) {B : List Q} {q : Q} (hB : B ∈ P) (hq : q ∈ B) :
    blockOf P q = some B := by
  unfold blockOf
  cases h : P.reverse.find? (fun b => decide (q ∈ b)) with
  | none =>
    have := List.find?_eq_none.1 h B (List.mem_reverse.2 hB)
    simp [hq] at this
  | some B' =>
    have h1 := List.find?_some h
    have h2 := List.mem_reverse.1 (List.mem_of_find?_eq_some h)
    rw [hd B' h2 B hB q (by simpa using h1) hq]

theorem mem_of_blockOf {P : List (List Q)} {B : List Q} {q : Q} (h : blockOf P q = some B) : B ∈ P ∧ q ∈ B := by
  unfold blockOf at h
  exact ⟨List.mem_reverse.1 (List.mem_of_find?_eq_some h), by simpa using List.find?_some h⟩

/-- The block of a state. -/
def block (P : List (List Q)) (q : Q) : List Q := (blockOf P q).getD []

theorem blockOf_eq {P : List (List Q)} {q : Q} (h : ∃ B ∈ P, q ∈ B) (hd : Disjoint P) : blockOf P q = some (block P q) := by
  obtain ⟨B, hB, hq⟩ := h
  rw [block, blockOf_of_mem hd hB hq]
  rfl

theorem foldlM_add {P : List (List Q)} (ts : List (Q × L × Q)) (m : DetAut (List Q) L)
    (h : ∀ t ∈ ts, blockOf P t.1 = some (block P t.1) ∧ blockOf P t.2.2 = some (block P t.2.2)) :
    (ts.foldlM (fun (result : DetAut (List Q) L) t => do
      let source ← Out.ofOption (blockOf P t.1)
      let target ← Out.ofOption (blockOf P t.2.2)
      Out.ok (result.add source t.2.1 target)) m : Out Empty (DetAut (List Q) L)) =
    .ok { m with
      transitions := (ts.map fun t => (block P t.1, t.2.1, block P t.2.2)).foldl (fun r x => addTo r x.1 x.2.1 x.2.2)
        m.transitions } := by
  induction ts generalizing m with
  | nil => rfl
  | cons t ts ih =>
    rw [List.forall_mem_cons] at h
    rw [List.foldlM_cons, h.1.1, h.1.2]
    exact ih (m.add (block P t.1) t.2.1 (block P t.2.2)) h.2

/-- What `minimize` computes. -/
theorem minimize_spec {a : DetAut Q L} (ha : TableWF a.transitions) {n : Nat} {P₀ : List (List Q)} (hd : Disjoint P₀)
    (hn : P₀.Nodup) (hc : a.Covers P₀) {o : Out Empty (DetAut (List Q) L)} (h : a.minimize n P₀ = o) (ho : o ≠ .fuel) :
    ∃ P m, o = .ok m ∧ Refines P P₀ ∧ Disjoint P ∧ a.Covers P ∧ a.Sep (fun _ _ => False) P [] ∧ m.initial = block P a.initial ∧
      m.finals = [] ∧ TableWF m.transitions ∧
      ∀ S l T, (S, l, T) ∈ triples m.transitions ↔ ∃ t ∈ triples a.transitions, S = block P t.1 ∧ l = t.2.1 ∧
        T = block P t.2.2 := by
  unfold minimize at h
  cases hr : a.refinePartition n P₀ P₀ with
  | none => rw [hr] at h; exact absurd h.symm ho
  | some P =>
    rw [hr] at h
    obtain ⟨hinv, href⟩ := refinePartition_spec ha (inv_start hd hn) hr
    have hcov := hc.refines href
    have hb : ∀ q, (∃ B ∈ P, q ∈ B) → blockOf P q = some (block P q) := fun q hq => blockOf_eq hq hinv.disjoint
    simp only [hb _ hcov.1, Out.ofOption_some] at h
    change (triples a.transitions).foldlM _ (new (block P a.initial)) = o at h
    rw [foldlM_add _ _ fun t ht => ⟨hb _ (hcov.2 t ht).1, hb _ (hcov.2 t ht).2⟩] at h
    have hmemb : ∀ q, (∃ B ∈ P, q ∈ B) → block P q ∈ P ∧ q ∈ block P q := fun q hq => mem_of_blockOf (hb q hq)
    obtain ⟨h1, h2⟩ := lookup_foldl (ts := (triples a.transitions).map fun t => (block P t.1, t.2.1, block P t.2.2)) (by
      intro x hx y hy h3 h4
      obtain ⟨⟨s, l, t⟩, hs, rfl⟩ := List.mem_map.1 hx
      obtain ⟨⟨s', l', t'⟩, hs', rfl⟩ := List.mem_map.1 hy
      dsimp only at h3 h4
      subst h4
      obtain ⟨c1, c2⟩ := hcov.2 _ hs
      obtain ⟨c3, c4⟩ := hcov.2 _ hs'
      have hm := hmemb s c1
      have hm' := hmemb s' c3
      rw [← h3] at hm'
      have hit := (hinv.sep _ hm.1 s hm.2 s' hm'.2 l (by simp) (by simp) _ (hmemb t c2).1).1 ⟨t, hs, (hmemb t c2).2⟩
      obtain ⟨t'', h5, h6⟩ := hit
      have := triples_functional ha hs' h5
      subst this
      have := hinv.disjoint _ (hmemb t c2).1 _ (hmemb _ c4).1 _ h6 (hmemb _ c4).2
      rw [h3, this]) [] ⟨List.nodup_nil, by simp⟩
    refine ⟨P, _, h.symm, href, hinv.disjoint, hcov, hinv.sep, rfl, rfl, h1, fun S l T => ?_⟩
    have h3 := h2 S l T
    rw [lookup_iff h1] at h3
    have hnil : lookup ([] : List (List Q × List (L × List Q))) S l = none := rfl
    rw [hnil] at h3
    simp only [reduceCtorEq, and_false, or_false] at h3
    refine h3.trans ?_
    rw [List.mem_map]
    constructor
    · rintro ⟨t, ht, he⟩
      simp only [Prod.mk.injEq] at he
      exact ⟨t, ht, he.1.symm, he.2.1.symm, he.2.2.symm⟩
    · rintro ⟨t, ht, rfl, rfl, rfl⟩
      exact ⟨t, ht, rfl⟩

theorem minimize_total {a : DetAut Q L} (ha : TableWF a.transitions) {P₀ : List (List Q)} (hd : Disjoint P₀) (hn : P₀.Nodup)
    (hc : a.Covers P₀) {n : Nat} (hw : weight P₀ P₀ ≤ n) : ∃ m, a.minimize n P₀ = .ok m := by
  obtain ⟨P, hP⟩ := refinePartition_total ha (inv_start hd hn) hw
  obtain ⟨P, m, h, -⟩ := minimize_spec ha hd hn hc (n := n) rfl (by
    have hcov := hc.refines (refinePartition_spec ha (inv_start hd hn) hP).2
    have hdis := (refinePartition_spec ha (inv_start hd hn) hP).1.disjoint
    have hb : ∀ q, (∃ B ∈ P, q ∈ B) → blockOf P q = some (block P q) := fun q hq => blockOf_eq hq hdis
    unfold minimize
    rw [hP]
    simp only [hb _ hcov.1, Out.ofOption_some]
    change (triples a.transitions).foldlM _ (new (block P a.initial)) ≠ _
    rw [foldlM_add _ _ fun t ht => ⟨hb _ (hcov.2 t ht).1, hb _ (hcov.2 t ht).2⟩]
    exact fun h => by cases h)
  exact ⟨m, h⟩

/-- Once the classes of final states are marked as final, `minimize` preserves the language. -/
theorem minimize_accepts {a : DetAut Q CharRange} (ha : TableWF a.transitions) {n : Nat} {P₀ : List (List Q)}
    (hd : Disjoint P₀) (hn : P₀.Nodup) (hc : a.Covers P₀)
    (hfin : ∀ B ∈ P₀, ∀ x ∈ B, ∀ y ∈ B, x ∈ a.finals ↔ y ∈ a.finals) {m : DetAut (List Q) CharRange}
    (h : a.minimize n P₀ = .ok m) {fin : List (List Q)} (hf : ∀ w B, m.Path m.initial w B → (B ∈ fin ↔ ∃ q ∈ B, q ∈ a.finals)) (w : List Nat) :
    ({ m with finals := fin } : DetAut (List Q) CharRange).Accepts w ↔ a.Accepts w := by
  obtain ⟨P, m', hm, href, hdis, hcov, hsep, hi, -, -, ht⟩ := minimize_spec ha hd hn hc h (fun h => by cases h)
  cases hm
  have hmemb : ∀ q, (∃ B ∈ P, q ∈ B) → block P q ∈ P ∧ q ∈ block P q := fun q hq => mem_of_blockOf (blockOf_eq hq hdis)
  have hfwd : ∀ q w q', a.Path q w q' → ({ m with finals := fin } : DetAut (List Q) CharRange).Path (block P q) w (block P q') := by
    intro q w q' hp
    induction hp with
    | nil => exact .nil _
    | cons h1 h2 h3 h4 _ ih =>
      obtain ⟨ts, h5, h6⟩ := mem_triples.1 ((ht _ _ _).2 ⟨_, mem_triples.2 ⟨_, h1, h2⟩, rfl, rfl, rfl⟩)
      exact .cons h5 h6 h3 h4 ih
  have hbwd : ∀ B w B', ({ m with finals := fin } : DetAut (List Q) CharRange).Path B w B' → B ∈ P → ∀ q ∈ B,
      ∃ q' ∈ B', B' ∈ P ∧ a.Path q w q' := by
    intro B w B' hp
    induction hp with
    | nil => exact fun hB q hq => ⟨q, hq, hB, .nil _⟩
    | cons h1 h2 h3 h4 _ ih =>
      intro hB q hq
      obtain ⟨⟨s, l, t⟩, h5, h51, h52, h53⟩ := (ht _ _ _).1 (mem_triples.2 ⟨_, h1, h2⟩)
      dsimp only at h51 h52 h53
      subst h51 h52 h53
      obtain ⟨c1, c2⟩ := hcov.2 _ h5
      obtain ⟨t', h6, h7⟩ := (hsep _ hB s (hmemb s c1).2 q hq _ (by simp) (by simp) _ (hmemb t c2).1).1 ⟨t, h5, (hmemb t c2).2⟩
      obtain ⟨q', h8, h9, h10⟩ := ih (hmemb t c2).1 t' h7
      obtain ⟨ts, h11, h12⟩ := mem_triples.1 h6
      exact ⟨q', h8, h9, .cons h11 h12 h3 h4 h10⟩
  have hplain : ∀ B w B', ({ m with finals := fin } : DetAut (List Q) CharRange).Path B w B' → m.Path B w B' := by
    intro B w B' hp
    exact Path.congr (a := { m with finals := fin }) (b := m) (fun x hx => hx) hp
  constructor
  · rintro ⟨B, hB, hp⟩
    have h0 := hmemb _ hcov.1
    rw [← hi] at h0
    obtain ⟨q', h1, h2, h3⟩ := hbwd _ _ _ hp h0.1 a.initial h0.2
    obtain ⟨q, hq, hqf⟩ := (hf w B (hplain _ _ _ hp)).1 hB
    obtain ⟨B₀, hB₀, hsub⟩ := href.1 B h2
    exact ⟨q', (hfin B₀ hB₀ q (hsub q hq) q' (hsub q' h1)).1 hqf, h3⟩
  · rintro ⟨q, hq, hp⟩
    have hin : ∀ q w q', a.Path q w q' → (∃ B ∈ P, q ∈ B) → ∃ B ∈ P, q' ∈ B := by
      intro q w q' hp
      induction hp with
      | nil => exact id
      | cons h1 h2 _ _ _ ih => exact fun _ => ih (hcov.2 _ (mem_triples.2 ⟨_, h1, h2⟩)).2
    have hp' := hfwd _ _ _ hp
    rw [← hi] at hp'
    exact ⟨block P q, (hf w _ (hplain _ _ _ hp')).2 ⟨q, (hmemb q (hin _ _ _ hp hcov.1)).2, hq⟩, hp'⟩

end DetAut

end Verif
