import Verif.DetLemmas

/-! # Compression of deterministic automata -/

set_option linter.unusedSectionVars false
set_option linter.unusedSimpArgs false

namespace Verif

namespace DetAut

variable {Q L : Type _} [DecidableEq Q] [DecidableEq L]

/-- There is a path with these labels from the first state to the second. -/
inductive LabelPath {M : Type _} (a : DetAut Q M) : Q → List M → Q → Prop
  | nil (q : Q) : LabelPath a q [] q
  | cons {q r s : Q} {l : M} {ls : List M} : (l, r) ∈ a.row q → LabelPath a r ls s → LabelPath a q (l :: ls) s

theorem LabelPath.append {M : Type _} {a : DetAut Q M} {q r s : Q} {l m : List M} (h : LabelPath a q l r) (h' : LabelPath a r m s) :
    LabelPath a q (l ++ m) s := by
  induction h with
  | nil => exact h'
  | cons h _ ih => exact .cons h (ih h')

theorem singleTransition_row {a : DetAut Q L} {q : Q} {e : L × Q} (h : a.singleTransition q = some e) : a.row q = [e] := by
  unfold singleTransition at h
  unfold row
  split at h
  · rename_i e' he
    cases h
    rw [he]
    rfl
  · cases h

theorem singleTransition_none {a : DetAut Q L} {q : Q} (h : a.singleTransition q = none) : (a.row q).length ≠ 1 := by
  unfold singleTransition at h
  unfold row
  cases hg : AMap.get a.transitions q with
  | none => simp
  | some r =>
    rw [hg] at h
    match r, h with
    | [], _ => simp
    | [_], h => cases h
    | _ :: _ :: _, _ => simp

/-- Labels are appended to strings of labels. -/
def snoc (m : List L) (l : L) : List L := m ++ [l]

/-- What the inner loop adds is labelled by paths. -/
theorem compressFrom_sound (a : DetAut Q L) : ∀ (n : Nat) (label : List L) (r : Q) (out out' : List (List L × Q)),
    a.compressFrom snoc n label r out = some out' → ∀ m s, AMap.get out' m = some s →
      AMap.get out m = some s ∨ ∃ ls, m = label ++ ls ∧ LabelPath a r ls s := by
  intro n
  induction n with
  | zero => intro _ _ _ _ h; cases h
  | succ n ih =>
    intro label r out out' h m s hm
    unfold compressFrom at h
    have hins : ∀ out : List (List L × Q), AMap.get (AMap.insert out label r) m = some s →
        AMap.get out m = some s ∨ ∃ ls, m = label ++ ls ∧ LabelPath a r ls s := by
      intro out h
      rw [AMap.get_insert] at h
      split at h
      · rename_i hml
        cases h
        exact .inr ⟨[], by simp [hml], .nil _⟩
      · exact .inl h
    split at h
    · rename_i l s' hs
      rcases ih _ _ _ _ h m s hm with h | ⟨ls, rfl, hp⟩
      · split at h
        · exact hins _ h
        · exact .inl h
      · exact .inr ⟨l :: ls, by simp [snoc], .cons (by rw [singleTransition_row hs]; exact List.mem_cons_self ..) hp⟩
    · cases h
      exact hins _ hm

/-- Labels that do not extend the current label are kept. -/
theorem compressFrom_keeps (a : DetAut Q L) : ∀ (n : Nat) (label : List L) (r : Q) (out out' : List (List L × Q)),
    a.compressFrom snoc n label r out = some out' → ∀ m, ¬ label <+: m → AMap.get out' m = AMap.get out m := by
  intro n
  induction n with
  | zero => intro _ _ _ _ h; cases h
  | succ n ih =>
    intro label r out out' h m hm
    unfold compressFrom at h
    have hins : ∀ out : List (List L × Q), AMap.get (AMap.insert out label r) m = AMap.get out m := by
      intro out
      rw [AMap.get_insert, if_neg]
      rintro rfl
      exact hm (List.prefix_refl _)
    split at h
    · rename_i l s' hs
      rw [ih _ _ _ _ h m fun h => hm ((List.prefix_append _ _).trans h)]
      split
      · exact hins _
      · rfl
    · cases h
      exact hins _

/-- A path that goes through states with one transition only, but the last. -/
inductive ChainPath (a : DetAut Q L) : Q → List L → Q → Prop
  | nil (q : Q) : ChainPath a q [] q
  | cons {q r s : Q} {l : L} {ls : List L} : a.singleTransition q = some (l, r) → ChainPath a r ls s → ChainPath a q (l :: ls) s

/-- Final states and the last state of a chain are added. -/
theorem compressFrom_complete (a : DetAut Q L) : ∀ (n : Nat) (label : List L) (r : Q) (out out' : List (List L × Q)),
    a.compressFrom snoc n label r out = some out' → ∀ ls s, ChainPath a r ls s →
      (a.isFinal s = true ∨ a.singleTransition s = none) → AMap.get out' (label ++ ls) = some s := by
  intro n
  induction n with
  | zero => intro _ _ _ _ h; cases h
  | succ n ih =>
    intro label r out out' h ls s hp hs
    unfold compressFrom at h
    cases hp with
    | nil =>
      split at h
      · rename_i l s' hl
        rw [compressFrom_keeps a _ _ _ _ _ h]
        · rcases hs with hs | hs
          · rw [if_pos hs, AMap.get_insert, if_pos (by simp)]
          · rw [hs] at hl; cases hl
        · intro hpre
          have := hpre.length_le
          simp [snoc] at this
          omega
      · cases h
        rw [AMap.get_insert, if_pos (by simp)]
    | @cons _ r' _ l ls hl hp =>
      rw [hl] at h
      have := ih _ _ _ _ h ls s hp hs
      simpa [snoc] using this

variable {a : DetAut Q L}

/-- The fold over the transitions of the initial state. -/
theorem compress_fold_sound (n : Nat) : ∀ (es : List (L × Q)) (out out' : List (List L × Q)),
    es.foldlM (fun out e => a.compressFrom snoc n (snoc [] e.1) e.2 out) out = some out' → ∀ m s, AMap.get out' m = some s →
      AMap.get out m = some s ∨ ∃ e ∈ es, ∃ ls, m = e.1 :: ls ∧ LabelPath a e.2 ls s := by
  intro es
  induction es with
  | nil => intro out out' h m s hm; cases h; exact .inl hm
  | cons e es ih =>
    intro out out' h m s hm
    rw [List.foldlM_cons, Option.bind_eq_bind, Option.bind_eq_some_iff] at h
    obtain ⟨o, ho, h⟩ := h
    rcases ih _ _ h m s hm with h | ⟨e', he', h⟩
    · rcases compressFrom_sound a _ _ _ _ _ ho m s h with h | ⟨ls, h1, h2⟩
      · exact .inl h
      · exact .inr ⟨e, List.mem_cons_self .., ls, by simpa [snoc] using h1, h2⟩
    · exact .inr ⟨e', List.mem_cons_of_mem _ he', h⟩

theorem compress_fold_keeps (n : Nat) : ∀ (es : List (L × Q)) (out out' : List (List L × Q)),
    es.foldlM (fun out e => a.compressFrom snoc n (snoc [] e.1) e.2 out) out = some out' → ∀ l ls, l ∉ es.map Prod.fst →
      AMap.get out' (l :: ls) = AMap.get out (l :: ls) := by
  intro es
  induction es with
  | nil => intro out out' h l ls _; cases h; rfl
  | cons e es ih =>
    intro out out' h l ls hl
    rw [List.foldlM_cons, Option.bind_eq_bind, Option.bind_eq_some_iff] at h
    obtain ⟨o, ho, h⟩ := h
    rw [List.map_cons, List.mem_cons, not_or] at hl
    rw [ih _ _ h l ls hl.2, compressFrom_keeps a _ _ _ _ _ ho]
    simp only [snoc, List.nil_append, List.cons_prefix_cons, List.nil_prefix, and_true]
    exact fun h => hl.1 h.symm

theorem compress_fold_complete (n : Nat) : ∀ (es : List (L × Q)) (out out' : List (List L × Q)), (es.map Prod.fst).Nodup →
    es.foldlM (fun out e => a.compressFrom snoc n (snoc [] e.1) e.2 out) out = some out' → ∀ e ∈ es, ∀ ls s, ChainPath a e.2 ls s →
      (a.isFinal s = true ∨ a.singleTransition s = none) → AMap.get out' (e.1 :: ls) = some s := by
  intro es
  induction es with
  | nil => intro out out' _ h e he; cases he
  | cons e es ih =>
    intro out out' hn h e' he' ls s hp hs
    rw [List.foldlM_cons, Option.bind_eq_bind, Option.bind_eq_some_iff] at h
    obtain ⟨o, ho, h⟩ := h
    rw [List.map_cons, List.nodup_cons] at hn
    rcases List.mem_cons.1 he' with rfl | he'
    · rw [compress_fold_keeps n es _ _ h _ _ hn.1]
      simpa [snoc] using compressFrom_complete a _ _ _ _ _ ho ls s hp hs
    · exact ih _ _ hn.2 h e' he' ls s hp hs

/-- The automaton that is returned. -/
theorem compress_eq {n : Nat} {b : DetAut Q (List L)} (h : a.compress n [] snoc = some b) :
    ∃ row, (a.row a.initial).foldlM (fun out e => a.compressFrom snoc n (snoc [] e.1) e.2 out) [] = some row ∧
      b = { initial := a.initial, finals := a.finals, transitions := [(a.initial, row)] } := by
  unfold compress at h
  rw [Option.bind_eq_bind, Option.bind_eq_some_iff] at h
  obtain ⟨row, h1, h2⟩ := h
  cases h2
  exact ⟨row, h1, rfl⟩

theorem unique_insert {K V : Type _} [DecidableEq K] {m : List (K × V)} (h : AMap.Unique m) (k : K) (v : V) : AMap.Unique (AMap.insert m k v) :=
  AMap.unique_modify h _ _ _

theorem compressFrom_unique (a : DetAut Q L) : ∀ (n : Nat) (label : List L) (r : Q) (out out' : List (List L × Q)),
    a.compressFrom snoc n label r out = some out' → AMap.Unique out → AMap.Unique out' := by
  intro n
  induction n with
  | zero => intro _ _ _ _ h; cases h
  | succ n ih =>
    intro label r out out' h hu
    unfold compressFrom at h
    split at h
    · refine ih _ _ _ _ h ?_
      split
      · exact unique_insert hu _ _
      · exact hu
    · cases h
      exact unique_insert hu _ _

theorem compress_fold_unique (n : Nat) : ∀ (es : List (L × Q)) (out out' : List (List L × Q)),
    es.foldlM (fun out e => a.compressFrom snoc n (snoc [] e.1) e.2 out) out = some out' → AMap.Unique out → AMap.Unique out' := by
  intro es
  induction es with
  | nil => intro out out' h hu; cases h; exact hu
  | cons e es ih =>
    intro out out' h hu
    rw [List.foldlM_cons, Option.bind_eq_bind, Option.bind_eq_some_iff] at h
    obtain ⟨o, ho, h⟩ := h
    exact ih _ _ h (compressFrom_unique a _ _ _ _ _ ho hu)

theorem row_of_single {i q : Q} {fin : List Q} {row : List (List L × Q)} {e : List L × Q}
    (h : e ∈ ({ initial := i, finals := fin, transitions := [(i, row)] } : DetAut Q (List L)).row q) : q = i ∧ e ∈ row := by
  unfold DetAut.row at h
  simp only [AMap.get] at h
  split at h
  · rename_i hq
    exact ⟨hq.symm, h⟩
  · cases h

/-- Each path of the compressed automaton is a path of the automaton. -/
theorem compress_sound {n : Nat} {b : DetAut Q (List L)} (h : a.compress n [] snoc = some b) {q : Q} {ms : List (List L)} {s : Q}
    (hp : LabelPath b q ms s) : LabelPath a q ms.flatten s := by
  obtain ⟨row, h1, rfl⟩ := compress_eq h
  have hu := compress_fold_unique n _ _ _ h1 (by simp [AMap.Unique])
  induction hp with
  | nil => exact .nil _
  | cons he _ ih =>
    obtain ⟨rfl, he'⟩ := row_of_single he
    rcases compress_fold_sound n _ _ _ h1 _ _ (AMap.get_of_mem hu he') with h | ⟨e, he₂, ls, rfl, hp⟩
    · cases h
    · rw [List.flatten_cons]
      exact LabelPath.append (.cons he₂ hp) ih

/-- A path either is a chain, or reaches the end of a chain first. -/
theorem LabelPath.chain {r s : Q} {ls : List L} (h : LabelPath a r ls s) :
    ChainPath a r ls s ∨ ∃ l m e, ls = l ++ m ∧ m ≠ [] ∧ ChainPath a r l e ∧ a.singleTransition e = none ∧ LabelPath a e m s := by
  induction h with
  | nil => exact .inl (.nil _)
  | @cons q r s l ls he hp ih =>
    cases hs : a.singleTransition q with
    | none => exact .inr ⟨[], l :: ls, q, rfl, by simp, .nil _, hs, .cons he hp⟩
    | some e =>
      rw [singleTransition_row hs, List.mem_singleton] at he
      subst he
      rcases ih with ih | ⟨l', m, e, rfl, hm, hc, he, hp'⟩
      · exact .inl (.cons hs ih)
      · exact .inr ⟨l :: l', m, e, rfl, hm, .cons hs hc, he, hp'⟩

/-- If only the initial state has several transitions, the paths to the final states remain. -/
theorem compress_complete {n : Nat} {b : DetAut Q (List L)} (h : a.compress n [] snoc = some b)
    (hr : ((a.row a.initial).map Prod.fst).Nodup) (hb : ∀ q, q ≠ a.initial → (a.row q).length ≤ 1) {s : Q} (hs : a.isFinal s = true) :
    ∀ (k : Nat) (ls : List L), ls.length ≤ k → LabelPath a a.initial ls s → ∃ ms, ms.flatten = ls ∧ LabelPath b a.initial ms s := by
  obtain ⟨row, h1, rfl⟩ := compress_eq h
  intro k
  induction k with
  | zero =>
    intro ls hl hp
    cases ls with
    | nil => cases hp; exact ⟨[], rfl, .nil _⟩
    | cons => simp at hl
  | succ k ih =>
    intro ls hl hp
    cases hp with
    | nil => exact ⟨[], rfl, .nil _⟩
    | @cons _ r _ l ls he hp =>
      have hrow : ∀ e ∈ row, e ∈ ({ initial := a.initial, finals := a.finals, transitions := [(a.initial, row)] } :
          DetAut Q (List L)).row a.initial := by
        intro e he
        simpa [DetAut.row, AMap.get] using he
      rcases hp.chain with hc | ⟨l', m, e, rfl, hm, hc, hn, hp'⟩
      · have := compress_fold_complete n _ _ _ hr h1 _ he ls s hc (.inl hs)
        exact ⟨[l :: ls], by simp, .cons (hrow _ (AMap.mem_of_get this)) (.nil _)⟩
      · have hei : e = a.initial := by
          refine Classical.byContradiction fun hne => ?_
          have h2 := hb e hne
          have h3 := singleTransition_none hn
          cases hp' with
          | nil => exact hm rfl
          | cons he _ =>
            have : (a.row e).length ≠ 0 := by
              intro h0
              rw [List.length_eq_zero_iff.1 h0] at he
              cases he
            omega
        subst hei
        have := compress_fold_complete n _ _ _ hr h1 _ he l' _ hc (.inr hn)
        obtain ⟨ms, rfl, hms⟩ := ih m (by simp only [List.length_cons, List.length_append] at hl; omega) hp'
        exact ⟨(l :: l') :: ms, by simp, .cons (hrow _ (AMap.mem_of_get this)) hms⟩

end DetAut

end Verif
