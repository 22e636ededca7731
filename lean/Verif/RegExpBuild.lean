import Verif.RegExpGraph
import Verif.NfaBuild
import Verif.NfaDet

/-! # The language of a compiled regular expression -/

set_option linter.unusedSectionVars false
set_option linter.unusedSimpArgs false

namespace Verif

namespace RegExp

/-- The language that the compiled automaton accepts, and the strings read from its final state to itself. -/
def lang : RegExp → Lang × Lang
  | .any => (fun w => ∃ c, c ≤ lastChar ∧ w = [c], eps)
  | .set s => (fun w => ∃ c, s.Mem c ∧ w = [c], eps)
  | .seq es => (lastExit eps es, eps)
  | .rep e min max =>
    if max < u32Max then (fun w => ∃ n, (min ≤ n ∨ n = max) ∧ n ≤ max ∧ Times e.lang.1 n w, eps)
    else
      let star := Star fun w => e.lang.1 w ∨ e.lang.2 w
      (fun w => ∃ u v, w = u ++ v ∧ Times e.lang.1 min u ∧ star v, star)
  | .union es => (anyOf es, eps)
where
  /-- The strings read from the final state of the last expression to itself. -/
  lastExit (X : Lang) : List RegExp → Lang
    | [] => X
    | e :: es => lastExit e.lang.2 es
  /-- The strings accepted by one of the compiled expressions. -/
  anyOf : List RegExp → Lang
    | [] => fun _ => False
    | e :: es => fun w => e.lang.1 w ∨ anyOf es w

/-- The transitions `E` have been added. -/
structure Adds (s s' : BuildState) (E : Edges) : Prop where
  le : s.1 ≤ s'.1
  wf : s'.2.WF
  edges : ∀ p l q, s'.2.Edge p l q ↔ s.2.Edge p l q ∨ E p l q
  initials : s'.2.initials = s.2.initials
  finals : s'.2.finals = s.2.finals

theorem Adds.rfl {s : BuildState} (h : s.2.WF) : Adds s s .none :=
  ⟨Nat.le_refl _, h, fun _ _ _ => ⟨.inl, fun h => h.elim id False.elim⟩, by rfl, by rfl⟩

theorem Adds.congr {s s' : BuildState} {E E' : Edges} (h : Adds s s' E) (hE : ∀ p l q, E p l q ↔ E' p l q) : Adds s s' E' :=
  ⟨h.le, h.wf, fun p l q => by rw [h.edges, hE], h.initials, h.finals⟩

theorem Adds.trans {s s' s'' : BuildState} {E E' : Edges} (h : Adds s s' E) (h' : Adds s' s'' E') : Adds s s'' (E.union E') :=
  ⟨Nat.le_trans h.le h'.le, h'.wf, fun p l q => by rw [h'.edges, h.edges, or_assoc]; exact Iff.rfl,
    h'.initials.trans h.initials, h'.finals.trans h.finals⟩

theorem Adds.fresh {s s' : BuildState} {E : Edges} (h : Adds (s.1 + 1, s.2) s' E) : Adds s s' E :=
  ⟨Nat.le_trans (Nat.le_succ _) h.le, h.wf, h.edges, h.initials, h.finals⟩

theorem Adds.fresh_after {s s' : BuildState} {E : Edges} (h : Adds s s' E) : Adds s (s'.1 + 1, s'.2) E :=
  ⟨Nat.le_trans h.le (Nat.le_succ _), h.wf, h.edges, h.initials, h.finals⟩

theorem Adds.edge {s s' : BuildState} {E : Edges} (h : Adds s s' E) (p : Nat) {l : Option RangeSet} (q : Nat)
    (hl : ∀ label, l = some label → label.WF ∧ label.Valid) : Adds s (addEdge s' p l q) (E.union (.one p l q)) := by
  refine ⟨h.le, Nfa.wf_add h.wf p hl q, fun p' l' q' => ?_, h.initials, h.finals⟩
  unfold addEdge
  rw [Nfa.edge_add h.wf p hl q, h.edges, or_assoc]
  exact Iff.rfl

theorem Adds.eps {s s' : BuildState} {E : Edges} (h : Adds s s' E) (p q : Nat) :
    Adds s (addEdge s' p none q) (E.union (.one p none q)) := h.edge p q (by simp)

/-- What is known of a function that builds an expression. -/
def Builds (into : BuildState → (Nat × Nat) × BuildState) (A X : Lang) : Prop :=
  ∀ s : BuildState, s.2.WF → ∃ a b s' E, into s = ((a, b), s') ∧ Adds s s' E ∧ Frag E s.1 s'.1 a b A X

theorem Frag.congr {E : Edges} {n n' a b : Nat} {A X A' X' : Lang} (h : Frag E n n' a b A X) (hA : ∀ w, A w ↔ A' w)
    (hX : ∀ w, X w ↔ X' w) : Frag E n n' a b A' X' :=
  ⟨h.ha, h.hb, h.edges, fun w => (h.accepts w).trans (hA w), fun w => (h.exit w).trans (hX w),
    fun w hw => by rw [← hA, ← hA]; exact h.entry w hw, fun w hw => (hA w).1 (h.back w hw)⟩

/-- Adding states at the end. -/
theorem Frag.congr_edges {E E' : Edges} {n n' a b : Nat} {A X : Lang} (h : Frag E n n' a b A X)
    (hE : ∀ p l q, E p l q ↔ E' p l q) : Frag E' n n' a b A X := by
  have : E = E' := by funext p l q; exact propext (hE p l q)
  rwa [← this]

theorem Builds.congr {into : BuildState → (Nat × Nat) × BuildState} {A X A' X' : Lang} (h : Builds into A X)
    (hA : ∀ w, A w ↔ A' w) (hX : ∀ w, X w ↔ X' w) : Builds into A' X' := by
  intro s hs
  obtain ⟨a, b, s', E, h1, h2, h3⟩ := h s hs
  exact ⟨a, b, s', E, h1, h2, h3.congr hA hX⟩

/-- Between zero and `max` strings of a language. -/
def upTo (A : Lang) (max : Nat) : Lang := fun w => ∃ n, n ≤ max ∧ Times A n w

theorem upTo_nil (A : Lang) (max : Nat) : upTo A max [] := ⟨0, Nat.zero_le _, rfl⟩

theorem upTo_succ (A : Lang) (max : Nat) (w : List Nat) : (w = [] ∨ cat A (upTo A max) w) ↔ upTo A (max + 1) w := by
  constructor
  · rintro (rfl | ⟨u, v, rfl, hu, n, hn, hv⟩)
    · exact upTo_nil A _
    · exact ⟨n + 1, by omega, u, v, rfl, hu, hv⟩
  · rintro ⟨n, hn, h⟩
    cases n with
    | zero => exact .inl h
    | succ n =>
      obtain ⟨u, v, rfl, hu, hv⟩ := h
      exact .inr ⟨u, v, rfl, hu, n, by omega, hv⟩

theorem builds_point : Builds (fun s => let (a, s) := newState s; ((a, a), s)) eps eps := fun s hs =>
  ⟨s.1, s.1, (s.1 + 1, s.2), .none, rfl, (Adds.rfl hs).fresh_after, frag_point s.1⟩

theorem builds_upTo {into : BuildState → (Nat × Nat) × BuildState} {A X : Lang} (h : Builds into A X) (max : Nat) :
    Builds (buildUpTo into max) (upTo A max) eps := by
  induction max with
  | zero =>
    refine builds_point.congr (fun w => ?_) fun _ => Iff.rfl
    constructor
    · rintro rfl; exact upTo_nil A 0
    · rintro ⟨n, hn, h⟩
      obtain rfl : n = 0 := by omega
      exact h
  | succ max ih =>
    intro s hs
    obtain ⟨a, b, s₁, E₁, h1, h2, h3⟩ := h s hs
    obtain ⟨c, d, s₂, E₂, h4, h5, h6⟩ := ih s₁ h2.wf
    refine ⟨a, d, _, _, ?_, ((h2.trans h5).eps a d).eps b c, ?_⟩
    · simp only [buildUpTo, h1, h4]
    · exact (frag_optional h3 h6 (upTo_nil A max) fun _ h => h).congr (upTo_succ A max) fun _ => Iff.rfl

theorem builds_star {into : BuildState → (Nat × Nat) × BuildState} {A X : Lang} (h : Builds into A X) :
    Builds (buildStar into) (Star fun w => A w ∨ X w) (Star fun w => A w ∨ X w) := by
  intro s hs
  obtain ⟨a, b, s₁, E₁, h1, h2, h3⟩ := h s hs
  refine ⟨a, b, _, _, ?_, (h2.eps a b).eps b a, frag_star h3⟩
  simp only [buildStar, h1]

/-- The languages of a repetition. -/
def repLang (A X : Lang) (min max : Nat) : Lang × Lang :=
  if max < u32Max then (fun w => ∃ n, (min ≤ n ∨ n = max) ∧ n ≤ max ∧ Times A n w, eps)
  else (fun w => ∃ u v, w = u ++ v ∧ Times A min u ∧ Star (fun w => A w ∨ X w) v, Star fun w => A w ∨ X w)

theorem Times.nil {A : Lang} (h : A []) (n : Nat) : Times A n [] := by
  induction n with
  | zero => rfl
  | succ n ih => exact ⟨[], [], rfl, h, ih⟩

theorem builds_repeat {into : BuildState → (Nat × Nat) × BuildState} {A X : Lang} (h : Builds into A X) (min max : Nat)
    (hmax : max ≤ u32Max) : Builds (buildRepeat into min max) (repLang A X min max).1 (repLang A X min max).2 := by
  induction min generalizing max with
  | zero =>
    cases max with
    | zero =>
      refine builds_point.congr (fun w => ?_) fun w => ?_
      · rw [repLang, if_pos (by decide)]
        constructor
        · rintro rfl; exact ⟨0, .inl (Nat.le_refl _), Nat.le_refl _, rfl⟩
        · rintro ⟨n, -, hn, h⟩
          obtain rfl : n = 0 := by omega
          exact h
      · rw [repLang, if_pos (by decide)]
    | succ max =>
      by_cases hlt : max + 1 < u32Max
      · have : buildRepeat into 0 (max + 1) = buildUpTo into (max + 1) := by
          funext s
          simp only [buildRepeat, if_pos hlt]
        rw [this]
        refine (builds_upTo h (max + 1)).congr (fun w => ?_) fun w => ?_
        · rw [repLang, if_pos hlt]
          exact ⟨fun ⟨n, h1, h2⟩ => ⟨n, .inl (Nat.zero_le _), h1, h2⟩, fun ⟨n, _, h1, h2⟩ => ⟨n, h1, h2⟩⟩
        · rw [repLang, if_pos hlt]
      · have : buildRepeat into 0 (max + 1) = buildStar into := by
          funext s
          simp only [buildRepeat, if_neg hlt]
        rw [this]
        refine (builds_star h).congr (fun w => ?_) fun w => ?_
        · rw [repLang, if_neg hlt]
          exact ⟨fun h => ⟨[], w, rfl, rfl, h⟩, fun ⟨u, v, h1, h2, h3⟩ => by cases h2; subst h1; exact h3⟩
        · rw [repLang, if_neg hlt]
  | succ min ih =>
    cases max with
    | zero =>
      refine builds_point.congr (fun w => ?_) fun w => ?_
      · rw [repLang, if_pos (by decide)]
        constructor
        · rintro rfl; exact ⟨0, .inr rfl, Nat.le_refl _, rfl⟩
        · rintro ⟨n, -, hn, h⟩
          obtain rfl : n = 0 := by omega
          exact h
      · rw [repLang, if_pos (by decide)]
    | succ max =>
      intro s hs
      obtain ⟨a, b, s₁, E₁, h1, h2, h3⟩ := h s hs
      by_cases hlt : max + 1 < u32Max
      · obtain ⟨c, d, s₂, E₂, h4, h5, h6⟩ := ih max (by omega) s₁ h2.wf
        refine ⟨a, d, _, _, ?_, (h2.trans h5).eps b c, ?_⟩
        · simp only [buildRepeat, h1, if_pos hlt, h4]
        · have hlt' : max < u32Max := by omega
          rw [repLang, if_pos hlt'] at h6
          refine (frag_concat h3 h6 fun hA => ?_).congr (fun w => ?_) fun w => ?_
          · exact ⟨max, .inr rfl, Nat.le_refl _, Times.nil hA _⟩
          · rw [repLang, if_pos hlt]
            constructor
            · rintro ⟨u, v, rfl, hu, n, h7, h8, h9⟩
              exact ⟨n + 1, by omega, by omega, u, v, rfl, hu, h9⟩
            · rintro ⟨n, h7, h8, h9⟩
              cases n with
              | zero => omega
              | succ n =>
                obtain ⟨u, v, rfl, hu, hv⟩ := h9
                exact ⟨u, v, rfl, hu, n, by omega, by omega, hv⟩
          · rw [repLang, if_pos hlt]
      · obtain ⟨c, d, s₂, E₂, h4, h5, h6⟩ := ih u32Max (Nat.le_refl _) s₁ h2.wf
        refine ⟨a, d, _, _, ?_, (h2.trans h5).eps b c, ?_⟩
        · simp only [buildRepeat, h1, if_neg hlt, h4]
        · rw [repLang, if_neg (Nat.lt_irrefl _)] at h6
          refine (frag_concat h3 h6 fun hA => ?_).congr (fun w => ?_) fun w => ?_
          · exact ⟨[], [], rfl, Times.nil hA _, .nil⟩
          · rw [repLang, if_neg hlt]
            constructor
            · rintro ⟨u, v, rfl, hu, x, y, rfl, hx, hy⟩
              exact ⟨u ++ x, y, by rw [List.append_assoc], ⟨u, x, rfl, hu, hx⟩, hy⟩
            · rintro ⟨u, v, rfl, ⟨x, y, rfl, hx, hy⟩, hv⟩
              exact ⟨x, y ++ v, by rw [List.append_assoc], hx, y, v, rfl, hy, hv⟩
          · rw [repLang, if_neg hlt]

theorem mem_anySet (c : Nat) : anySet.Mem c ↔ c ≤ lastChar := by
  have h : anySet = [⟨0, lastChar⟩] := by decide +kernel
  rw [h]
  simp [RangeSet.Mem, CharRange.Mem]

theorem wf_anySet : anySet.WF ∧ anySet.Valid := by
  have h : anySet = [⟨0, lastChar⟩] := by decide +kernel
  rw [h]
  simp [RangeSet.WF, RangeSet.Valid]

theorem builds_char (charset : RangeSet) (hw : charset.WF ∧ charset.Valid) :
    Builds (fun s => let (a, s) := newState s; let (b, s) := newState s; ((a, b), addEdge s a (some charset) b))
      (fun w => ∃ c, charset.Mem c ∧ w = [c]) eps := by
  intro s hs
  refine ⟨s.1, s.1 + 1, _, _, rfl, ((Adds.rfl hs).fresh_after.fresh_after.edge s.1 (s.1 + 1) ?_), ?_⟩
  · rintro l ⟨⟩; exact hw
  · refine (frag_char s.1 charset).congr_edges fun p l q => ?_
    exact ⟨.inr, fun h => h.elim False.elim id⟩

theorem lastExit_of_ne {es : List RegExp} (h : es ≠ []) (X X' : Lang) : lang.lastExit X es = lang.lastExit X' es := by
  cases es with
  | nil => exact absurd rfl h
  | cons => rfl

mutual

theorem builds_into : ∀ e : RegExp, e.WF → Builds e.buildInto e.lang.1 e.lang.2
  | .any, _ => by
    have h := builds_char anySet wf_anySet
    refine Builds.congr (into := RegExp.any.buildInto) h (fun w => ?_) fun _ => Iff.rfl
    simp only [mem_anySet]
    exact Iff.rfl
  | .set s, hw => builds_char s hw
  | .rep e min max, hw => by
    have h := builds_repeat (builds_into e hw.1) min max hw.2.2
    have hr : (RegExp.rep e min max).buildInto = buildRepeat e.buildInto min max := by
      funext s; simp only [buildInto]
    rw [hr]
    exact h
  | .seq es, hw => by
    intro s hs
    obtain ⟨a', s', E, h1, h2, h3, h4, h5⟩ := builds_seq es hw s.1 (s.1 + 1, s.2) hs (Nat.lt_succ_self _)
    have hle := h2.le
    refine ⟨a', s'.1, _, _, ?_, (h2.fresh.fresh_after.eps a' s'.1), ?_⟩
    · simp only [buildInto, newState, h1]
    · dsimp only at h3 h4 hle
      have ha' : s.1 ≤ a' ∧ a' < s'.1 := by
        split at h3
        · subst h3; omega
        · omega
      have hstuck : ∀ l q, ¬ (E.union (.one a' none s'.1)) s'.1 l q := by
        rintro l q (h | ⟨h, -⟩)
        · have := h4 _ _ _ h; omega
        · omega
      have hS : ∀ p l q, (E.union (.one a' none s'.1)) p l q → True → (E p l q ∧ True) ∨ (l = none ∧ p = a' ∧ q = s'.1) := by
        rintro p l q (h | ⟨rfl, rfl, rfl⟩) -
        · exact .inl ⟨h, trivial⟩
        · exact .inr ⟨rfl, rfl, rfl⟩
      have hloop : ∀ q w, EPath (E.union (.one a' none s'.1)) a' w q →
          EPath E a' w q ∨ (lang.lastExit eps es w ∧ q = s'.1) := by
        intro q w h
        rcases h.cross (fun _ => True) _ hS trivial with ⟨h6, -⟩ | ⟨_, _, u, v, ⟨rfl, rfl⟩, rfl, h6, h7⟩
        · exact .inl h6
        · obtain ⟨rfl, rfl⟩ := h7.stuck hstuck
          rw [List.append_nil]
          exact .inr ⟨(h5 u).1 h6, rfl⟩
      have hmax : ∀ p w q, EPath E p w q → p < s'.1 → q < s'.1 := by
        intro p w q h
        induction h with
        | nil => exact id
        | epsilon h1 _ ih => exact fun _ => ih (h4 _ _ _ h1).2.2
        | char h1 _ _ ih => exact fun _ => ih (h4 _ _ _ h1).2.2
      have hE : ∀ p l q, E p l q → (E.union (.one a' none s'.1)) p l q := fun _ _ _ h => .inl h
      have hn : (addEdge (s'.1 + 1, s'.2) a' none s'.1).1 = s'.1 + 1 := rfl
      rw [hn]
      refine ⟨by omega, by omega, ?_, fun w => ⟨fun h => ?_, fun h => ?_⟩, fun w => ⟨fun h => ?_, ?_⟩, fun w h => ?_,
        fun w h => ?_⟩
      · rintro p l q (h | ⟨rfl, rfl, rfl⟩)
        · have := h4 _ _ _ h; omega
        · omega
      · rcases hloop _ _ h with h | h
        · exact absurd (hmax _ _ _ h (by omega)) (Nat.lt_irrefl _)
        · exact h.1
      · have := ((h5 w).2 h).mono hE |>.append (.epsilon (.inr ⟨rfl, rfl, rfl⟩) (.nil s'.1))
        rwa [List.append_nil] at this
      · exact (h.stuck hstuck).1
      · rintro ⟨⟩; exact .nil _
      · rcases hloop _ _ h with h | h
        · exact .inr ⟨(h5 _).1 (.nil _), (h5 w).1 h⟩
        · omega
      · have := (h.stuck hstuck).2; omega
  | .union es, hw => by
    intro s hs
    obtain ⟨s', E, h1, h2, h3, h4⟩ := builds_union es hw s.1 (s.1 + 1) (s.1 + 2, s.2) hs (by dsimp only; omega)
    have hle := h2.le
    refine ⟨s.1, s.1 + 1, s', E, ?_, Adds.fresh (s := s) (Adds.fresh (s := (s.1 + 1, s.2)) h2), ?_⟩
    · simp only [buildInto, newState, h1]
    · dsimp only at h3 hle
      have hstuck : ∀ l q, ¬ E (s.1 + 1) l q := by
        intro l q h
        have := h3 _ _ _ h; omega
      have hentry : ∀ p w q, EPath E p w q → q = s.1 → w = [] ∧ p = s.1 := by
        intro p w q h
        induction h with
        | nil => exact fun h => ⟨rfl, h⟩
        | epsilon h1 _ ih => intro hq; have := h3 _ _ _ h1; have := (ih hq).2; omega
        | char h1 _ _ ih => intro hq; have := h3 _ _ _ h1; have := (ih hq).2; omega
      refine ⟨by omega, by omega, ?_, h4, fun w => ⟨fun h => (h.stuck hstuck).1, ?_⟩, fun w h => .inl (hentry _ _ _ h rfl).1,
        fun w h => ?_⟩
      · intro p l q h
        have := h3 _ _ _ h; omega
      · rintro ⟨⟩; exact .nil _
      · have := (hentry _ _ _ h rfl).2; omega

theorem builds_seq : ∀ (es : List RegExp), WF.WFs es → ∀ (a : Nat) (s : BuildState), s.2.WF → a < s.1 →
    ∃ a' s' E, buildInto.buildSeq es a s = (a', s') ∧ Adds s s' E ∧ (if es = [] then a' = a else s.1 ≤ a' ∧ a' < s'.1) ∧
      (∀ p l q, E p l q → (p = a ∨ (s.1 ≤ p ∧ p < s'.1)) ∧ s.1 ≤ q ∧ q < s'.1) ∧
      ∀ w, EPath E a' w a' ↔ lang.lastExit eps es w
  | [], _, a, s, hs, ha => ⟨a, s, .none, rfl, .rfl hs, by simp, fun _ _ _ h => h.elim, fun w =>
      ⟨fun h => (h.stuck fun _ _ h => h).1, fun h => by cases h; exact .nil _⟩⟩
  | e :: es, hw, a, s, hs, ha => by
    obtain ⟨ea, eb, s₁, E₁, h1, h2, h3⟩ := builds_into e hw.1 s hs
    obtain ⟨a', s', E₂, h4, h5, h6, h7, h8⟩ := builds_seq es hw.2 eb (addEdge s₁ a none ea) (h2.eps a ea).wf h3.hb.2
    have hea := h3.ha; have heb := h3.hb; have hle := h5.le
    dsimp only [addEdge] at h6 h7 hle
    refine ⟨a', s', _, ?_, (h2.eps a ea).trans h5, ?_, ?_, ?_⟩
    · simp only [buildInto.buildSeq, h1, h4]
    · rw [if_neg (by simp)]
      split at h6
      · subst h6; omega
      · omega
    · rintro p l q ((h | ⟨rfl, rfl, rfl⟩) | h)
      · have := h3.edges _ _ _ h; omega
      · omega
      · have := h7 _ _ _ h; omega
    · intro w
      by_cases hes : es = []
      · subst hes
        rw [if_pos rfl] at h6
        subst h6
        rw [show lang.lastExit eps [e] = e.lang.2 from rfl, ← h3.exit w]
        have hE₂ : ∀ p l q, ¬ E₂ p l q := by
          intro p l q h
          simp only [buildInto.buildSeq, Prod.mk.injEq] at h4
          rw [← h4.2] at h7
          have := h7 _ _ _ h
          have hn : (addEdge s₁ a none ea).1 = s₁.1 := rfl
          omega
        constructor
        · intro h
          refine (h.restrict (s.1 ≤ ·) ?_ (by omega)).1
          rintro p l q ((h | ⟨rfl, rfl, rfl⟩) | h) hp
          · exact ⟨h, (h3.edges _ _ _ h).2.1⟩
          · omega
          · exact absurd h (hE₂ _ _ _)
        · exact fun h => h.mono fun _ _ _ h => .inl (.inl h)
      · rw [if_neg hes] at h6
        rw [show lang.lastExit eps (e :: es) = lang.lastExit e.lang.2 es from rfl, lastExit_of_ne hes _ eps, ← h8 w]
        constructor
        · intro h
          refine (h.restrict (s₁.1 ≤ ·) ?_ (by omega)).1
          rintro p l q ((h | ⟨rfl, rfl, rfl⟩) | h) hp
          · have := h3.edges _ _ _ h; omega
          · have := h2.le; omega
          · exact ⟨h, (h7 _ _ _ h).2.1⟩
        · exact fun h => h.mono fun _ _ _ h => .inr h

theorem builds_union : ∀ (es : List RegExp), WF.WFs es → ∀ (a b : Nat) (s : BuildState), s.2.WF → (a < s.1 ∧ b < s.1 ∧ a ≠ b) →
    ∃ s' E, buildInto.buildUnion es a b s = s' ∧ Adds s s' E ∧
      (∀ p l q, E p l q → (p = a ∨ (s.1 ≤ p ∧ p < s'.1)) ∧ (q = b ∨ (s.1 ≤ q ∧ q < s'.1))) ∧
      ∀ w, EPath E a w b ↔ lang.anyOf es w
  | [], _, a, b, s, hs, hab => ⟨s, .none, rfl, .rfl hs, fun _ _ _ h => h.elim, fun w =>
      ⟨fun h => absurd (h.stuck fun _ _ h => h).2 (Ne.symm hab.2.2), False.elim⟩⟩
  | e :: es, hw, a, b, s, hs, hab => by
    obtain ⟨ea, eb, s₁, E₁, h1, h2, h3⟩ := builds_into e hw.1 s hs
    have hea := h3.ha; have heb := h3.hb; have hle₁ := h2.le
    obtain ⟨s', E₂, h4, h5, h6, h7⟩ := builds_union es hw.2 a b (addEdge (addEdge s₁ a none ea) eb none b)
      ((h2.eps a ea).eps eb b).wf (by dsimp only [addEdge]; omega)
    have hle := h5.le
    dsimp only [addEdge] at h6 hle
    refine ⟨s', _, ?_, ((h2.eps a ea).eps eb b).trans h5, ?_, ?_⟩
    · simp only [buildInto.buildUnion, h1, h4]
    · rintro p l q (((h | ⟨rfl, rfl, rfl⟩) | ⟨rfl, rfl, rfl⟩) | h)
      · have := h3.edges _ _ _ h; omega
      · omega
      · omega
      · have := h6 _ _ _ h; omega
    · intro w
      rw [show lang.anyOf (e :: es) w = (e.lang.1 w ∨ lang.anyOf es w) from rfl, ← h7 w, ← h3.accepts w]
      have hstuck : ∀ l q, ¬ (((E₁.union (.one a none ea)).union (.one eb none b)).union E₂) b l q := by
        rintro l q (((h | ⟨h, -⟩) | ⟨h, -⟩) | h)
        · have := h3.edges _ _ _ h; omega
        · omega
        · omega
        · have := h6 _ _ _ h; omega
      constructor
      · intro h
        have hfirst : ∀ p v, EPath (((E₁.union (.one a none ea)).union (.one eb none b)).union E₂) p v b →
            (s.1 ≤ p ∧ p < s₁.1 → ∃ u, v = u ∧ EPath E₁ p u eb) ∧ (s₁.1 ≤ p ∨ p = b → EPath E₂ p v b) := by
          intro p v hp
          constructor
          · intro hr
            rcases hp.cross (E₁ := E₁) (fun p => s.1 ≤ p ∧ p < s₁.1) (fun p q => p = eb ∧ q = b) (by
              rintro p l q (((h | ⟨rfl, rfl, rfl⟩) | ⟨rfl, rfl, rfl⟩) | h) hp
              · exact .inl ⟨h, (h3.edges _ _ _ h).2⟩
              · omega
              · exact .inr ⟨rfl, rfl, rfl⟩
              · have := h6 _ _ _ h; omega) hr with ⟨-, h⟩ | ⟨_, _, u, v, ⟨rfl, rfl⟩, rfl, h8, h9⟩
            · omega
            · obtain ⟨rfl, -⟩ := h9.stuck hstuck
              exact ⟨u, by rw [List.append_nil], h8⟩
          · intro hr
            refine (hp.restrict (fun p => s₁.1 ≤ p ∨ p = b) ?_ hr).1
            rintro p l q (((h | ⟨rfl, rfl, rfl⟩) | ⟨rfl, rfl, rfl⟩) | h) hp
            · have := h3.edges _ _ _ h; omega
            · omega
            · omega
            · have := h6 _ _ _ h
              exact ⟨h, by omega⟩
        generalize hx : b = x at h
        cases h with
        | nil => exact absurd hx.symm hab.2.2
        | epsilon h8 h9 =>
          subst hx
          have hh := hfirst _ _ h9
          rcases h8 with ((h8 | ⟨-, -, rfl⟩) | ⟨h8, -⟩) | h8
          · have := h3.edges _ _ _ h8; omega
          · obtain ⟨u, rfl, h10⟩ := hh.1 hea
            exact .inl h10
          · omega
          · have h11 := h6 _ _ _ h8
            exact .inr (.epsilon h8 (hh.2 (by omega)))
        | char h8 h9 h10 =>
          subst hx
          have hh := hfirst _ _ h10
          rcases h8 with ((h8 | ⟨-, h8, -⟩) | ⟨-, h8, -⟩) | h8
          · have := h3.edges _ _ _ h8; omega
          · cases h8
          · cases h8
          · have h11 := h6 _ _ _ h8
            exact .inr (.char h8 h9 (hh.2 (by omega)))
      · rintro (h | h)
        · have h8 : EPath (((E₁.union (.one a none ea)).union (.one eb none b)).union E₂) ea w eb :=
            h.mono fun _ _ _ h => .inl (.inl (.inl h))
          have h9 := h8.append (.epsilon (.inl (.inr ⟨rfl, rfl, rfl⟩)) (.nil b))
          rw [List.append_nil] at h9
          exact .epsilon (.inl (.inl (.inr ⟨rfl, rfl, rfl⟩))) h9
        · exact h.mono fun _ _ _ h => .inr h

end

end RegExp

end Verif
