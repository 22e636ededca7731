import Verif.RegExpSpec

/-! # Fragments of automata and their languages -/

set_option linter.unusedSectionVars false
set_option linter.unusedSimpArgs false

namespace Verif

namespace RegExp

/-- A set of transitions. -/
abbrev Edges := Nat → Option RangeSet → Nat → Prop

/-- There is a path. -/
inductive EPath (E : Edges) : Nat → List Nat → Nat → Prop
  | nil (p : Nat) : EPath E p [] p
  | epsilon {p p' q : Nat} {w : List Nat} : E p none p' → EPath E p' w q → EPath E p w q
  | char {p p' q : Nat} {s : RangeSet} {c : Nat} {w : List Nat} : E p (some s) p' → s.Mem c → EPath E p' w q →
      EPath E p (c :: w) q

/-- A set of strings. -/
abbrev Lang := List Nat → Prop

/-- The empty string only. -/
def eps : Lang := fun w => w = []

/-- Concatenation. -/
def cat (A B : Lang) : Lang := fun w => ∃ u v, w = u ++ v ∧ A u ∧ B v

/-- Iteration. -/
def Star (A : Lang) : Lang := fun w => ∃ n, Times A n w

theorem Times.append {A : Lang} {n m : Nat} {u v : List Nat} (h : Times A n u) (h' : Times A m v) : Times A (n + m) (u ++ v) := by
  induction n generalizing u with
  | zero => cases h; rw [Nat.zero_add]; exact h'
  | succ n ih =>
    obtain ⟨x, y, rfl, hx, hy⟩ := h
    rw [Nat.add_right_comm]
    exact ⟨x, y ++ v, by rw [List.append_assoc], hx, ih hy⟩

theorem Star.append {A : Lang} {u v : List Nat} (h : Star A u) (h' : Star A v) : Star A (u ++ v) := by
  obtain ⟨n, hn⟩ := h
  obtain ⟨m, hm⟩ := h'
  exact ⟨n + m, hn.append hm⟩

theorem Star.nil {A : Lang} : Star A [] := ⟨0, rfl⟩

theorem Star.one {A : Lang} {u : List Nat} (h : A u) : Star A u := ⟨1, u, [], by simp, h, rfl⟩

theorem EPath.append {E : Edges} {p q r : Nat} {u v : List Nat} (h : EPath E p u q) (h' : EPath E q v r) :
    EPath E p (u ++ v) r := by
  induction h with
  | nil => exact h'
  | epsilon h1 _ ih => exact .epsilon h1 (ih h')
  | char h1 h2 _ ih => exact .char h1 h2 (ih h')

theorem EPath.mono {E E' : Edges} (hE : ∀ p l q, E p l q → E' p l q) {p q : Nat} {w : List Nat} (h : EPath E p w q) :
    EPath E' p w q := by
  induction h with
  | nil => exact .nil _
  | epsilon h1 _ ih => exact .epsilon (hE _ _ _ h1) ih
  | char h1 h2 _ ih => exact .char (hE _ _ _ h1) h2 ih

/-- A path that starts in a closed set of states. -/
theorem EPath.restrict {E E' : Edges} (S : Nat → Prop) (hS : ∀ p l q, E p l q → S p → E' p l q ∧ S q) {p q : Nat}
    {w : List Nat} (h : EPath E p w q) (hp : S p) : EPath E' p w q ∧ S q := by
  induction h with
  | nil => exact ⟨.nil _, hp⟩
  | epsilon h1 _ ih =>
    obtain ⟨h3, h4⟩ := ih (hS _ _ _ h1 hp).2
    exact ⟨.epsilon (hS _ _ _ h1 hp).1 h3, h4⟩
  | char h1 h2 _ ih =>
    obtain ⟨h3, h4⟩ := ih (hS _ _ _ h1 hp).2
    exact ⟨.char (hS _ _ _ h1 hp).1 h2 h3, h4⟩

/-- A path that starts in a first region, whose edges to other states are the ε-transitions `K`. -/
theorem EPath.cross {E E₁ : Edges} (S : Nat → Prop) (K : Nat → Nat → Prop)
    (hS : ∀ p l q, E p l q → S p → (E₁ p l q ∧ S q) ∨ (l = none ∧ K p q)) {p q : Nat} {w : List Nat}
    (h : EPath E p w q) (hp : S p) :
    (EPath E₁ p w q ∧ S q) ∨ ∃ s t u v, K s t ∧ w = u ++ v ∧ EPath E₁ p u s ∧ EPath E t v q := by
  induction h with
  | nil => exact .inl ⟨.nil _, hp⟩
  | epsilon h1 h2 ih =>
    rcases hS _ _ _ h1 hp with ⟨h3, h4⟩ | ⟨-, h3⟩
    · rcases ih h4 with ⟨h5, h6⟩ | ⟨s, t, u, v, h5, rfl, h6, h7⟩
      · exact .inl ⟨.epsilon h3 h5, h6⟩
      · exact .inr ⟨s, t, u, v, h5, rfl, .epsilon h3 h6, h7⟩
    · exact .inr ⟨_, _, [], _, h3, rfl, .nil _, h2⟩
  | char h1 h2 h3 ih =>
    rcases hS _ _ _ h1 hp with ⟨h4, h5⟩ | ⟨h4, -⟩
    · rcases ih h5 with ⟨h6, h7⟩ | ⟨s, t, u, v, h6, rfl, h7, h8⟩
      · exact .inl ⟨.char h4 h2 h6, h7⟩
      · exact .inr ⟨s, t, _ :: u, v, h6, rfl, .char h4 h2 h7, h8⟩
    · cases h4

/-- A path over additional ε-transitions between a few states. -/
theorem EPath.loops {E E₁ : Edges} (K : Nat → Prop) (A : Lang)
    (hE : ∀ p l q, E p l q → E₁ p l q ∨ (l = none ∧ K p ∧ K q))
    (hA : ∀ p q w, K p → K q → EPath E₁ p w q → Star A w) {p q : Nat} {w : List Nat} (h : EPath E p w q) :
    EPath E₁ p w q ∨ ∃ x y u v z, K x ∧ K y ∧ w = u ++ v ++ z ∧ EPath E₁ p u x ∧ Star A v ∧ EPath E₁ y z q := by
  induction h with
  | nil => exact .inl (.nil _)
  | epsilon h1 h2 ih =>
    rcases hE _ _ _ h1 with h3 | ⟨-, h3, h4⟩
    · rcases ih with h5 | ⟨x, y, u, v, z, h5, h6, rfl, h7, h8, h9⟩
      · exact .inl (.epsilon h3 h5)
      · exact .inr ⟨x, y, u, v, z, h5, h6, rfl, .epsilon h3 h7, h8, h9⟩
    · rcases ih with h5 | ⟨x, y, u, v, z, h5, h6, rfl, h7, h8, h9⟩
      · exact .inr ⟨_, _, [], [], _, h3, h4, rfl, .nil _, .nil, h5⟩
      · exact .inr ⟨_, y, [], u ++ v, z, h3, h6, rfl, .nil _, (hA _ _ _ h4 h5 h7).append h8, h9⟩
  | char h1 h2 _ ih =>
    rcases hE _ _ _ h1 with h3 | ⟨h3, -⟩
    · rcases ih with h5 | ⟨x, y, u, v, z, h5, h6, rfl, h7, h8, h9⟩
      · exact .inl (.char h3 h2 h5)
      · exact .inr ⟨x, y, _ :: u, v, z, h5, h6, rfl, .char h3 h2 h7, h8, h9⟩
    · cases h3

/-- The state has no transition. -/
theorem EPath.stuck {E : Edges} {p q : Nat} {w : List Nat} (hp : ∀ l q, ¬ E p l q) (h : EPath E p w q) : w = [] ∧ q = p := by
  cases h with
  | nil => exact ⟨rfl, rfl⟩
  | epsilon h1 _ => exact absurd h1 (hp _ _)
  | char h1 _ _ => exact absurd h1 (hp _ _)

/-- A fragment: transitions between the states `n`, …, `n' - 1`, from `a` to `b`. `A` are the strings read from `a` to `b`,
`X` those from `b` to `b`. -/
structure Frag (E : Edges) (n n' a b : Nat) (A X : Lang) : Prop where
  ha : n ≤ a ∧ a < n'
  hb : n ≤ b ∧ b < n'
  edges : ∀ p l q, E p l q → (n ≤ p ∧ p < n') ∧ n ≤ q ∧ q < n'
  accepts : ∀ w, EPath E a w b ↔ A w
  exit : ∀ w, EPath E b w b ↔ X w
  entry : ∀ w, EPath E a w a → w = [] ∨ (A [] ∧ A w)
  back : ∀ w, EPath E b w a → A w

/-- The transitions of two sets. -/
def Edges.union (E E' : Edges) : Edges := fun p l q => E p l q ∨ E' p l q

/-- One transition. -/
def Edges.one (p : Nat) (l : Option RangeSet) (q : Nat) : Edges := fun p' l' q' => p' = p ∧ l' = l ∧ q' = q

/-- No transition. -/
def Edges.none : Edges := fun _ _ _ => False

theorem frag_point (n : Nat) : Frag .none n (n + 1) n n eps eps where
  ha := ⟨Nat.le_refl _, Nat.lt_succ_self _⟩
  hb := ⟨Nat.le_refl _, Nat.lt_succ_self _⟩
  edges := fun _ _ _ h => h.elim
  accepts := fun w => ⟨fun h => (h.stuck fun _ _ h => h).1, fun h => by cases h; exact .nil _⟩
  exit := fun w => ⟨fun h => (h.stuck fun _ _ h => h).1, fun h => by cases h; exact .nil _⟩
  entry := fun w h => .inl (h.stuck fun _ _ h => h).1
  back := fun w h => (h.stuck fun _ _ h => h).1

theorem frag_char (n : Nat) (s : RangeSet) :
    Frag (.one n (some s) (n + 1)) n (n + 2) n (n + 1) (fun w => ∃ c, s.Mem c ∧ w = [c]) eps := by
  have hstuck : ∀ l q, ¬ Edges.one n (some s) (n + 1) (n + 1) l q := fun l q h => by
    have := h.1; omega
  have hne : n ≠ n + 1 := by omega
  refine ⟨by omega, by omega, ?_, fun w => ⟨fun h => ?_, ?_⟩, fun w => ⟨fun h => (h.stuck hstuck).1, ?_⟩, fun w h => ?_,
    fun w h => absurd (h.stuck hstuck).2 hne⟩
  · rintro p l q ⟨rfl, rfl, rfl⟩; omega
  · generalize hx : n + 1 = x at h
    cases h with
    | nil => exact absurd hx.symm hne
    | epsilon h1 h2 => cases h1.2.1
    | char h1 h2 h3 =>
      obtain ⟨-, h4, rfl⟩ := h1
      cases h4
      subst hx
      obtain ⟨rfl, -⟩ := h3.stuck hstuck
      exact ⟨_, h2, rfl⟩
  · rintro ⟨c, h1, rfl⟩
    exact .char ⟨rfl, rfl, rfl⟩ h1 (.nil _)
  · rintro ⟨⟩; exact .nil _
  · generalize hx : n = x at h
    cases h with
    | nil => exact .inl rfl
    | epsilon h1 h2 => cases h1.2.1
    | char h1 h2 h3 =>
      obtain ⟨-, -, rfl⟩ := h1
      subst hx
      exact absurd (h3.stuck hstuck).2 hne

section Two

variable {E₁ E₂ : Edges} {n m k a b c d : Nat} {A₁ X₁ A₂ X₂ : Lang}

/-- A fragment followed by another one. -/
theorem frag_concat (h₁ : Frag E₁ n m a b A₁ X₁) (h₂ : Frag E₂ m k c d A₂ X₂) (hnil : A₁ [] → A₂ []) :
    Frag ((E₁.union E₂).union (.one b none c)) n k a d (cat A₁ A₂) X₂ := by
  have := h₁.ha; have := h₁.hb; have := h₂.ha; have := h₂.hb
  have hS₂ : ∀ p l q, ((E₁.union E₂).union (.one b none c)) p l q → m ≤ p → E₂ p l q ∧ m ≤ q := by
    rintro p l q ((h | h) | ⟨rfl, rfl, rfl⟩) hp
    · have := h₁.edges _ _ _ h; omega
    · exact ⟨h, (h₂.edges _ _ _ h).2.1⟩
    · omega
  have hS₁ : ∀ p l q, ((E₁.union E₂).union (.one b none c)) p l q → p < m → (E₁ p l q ∧ q < m) ∨
      (l = none ∧ p = b ∧ q = c) := by
    rintro p l q ((h | h) | ⟨rfl, rfl, rfl⟩) hp
    · exact .inl ⟨h, (h₁.edges _ _ _ h).2.2⟩
    · have := h₂.edges _ _ _ h; omega
    · exact .inr ⟨rfl, rfl, rfl⟩
  have hE₁ : ∀ p l q, E₁ p l q → ((E₁.union E₂).union (.one b none c)) p l q := fun _ _ _ h => .inl (.inl h)
  have hE₂ : ∀ p l q, E₂ p l q → ((E₁.union E₂).union (.one b none c)) p l q := fun _ _ _ h => .inl (.inr h)
  refine ⟨by omega, by omega, ?_, fun w => ⟨fun h => ?_, ?_⟩, fun w => ⟨fun h => ?_, fun h => ?_⟩, fun w h => ?_, fun w h => ?_⟩
  · rintro p l q ((h | h) | ⟨rfl, rfl, rfl⟩)
    · have := h₁.edges _ _ _ h; omega
    · have := h₂.edges _ _ _ h; omega
    · omega
  · rcases h.cross (· < m) (fun p q => p = b ∧ q = c) hS₁ (by omega) with ⟨-, h⟩ | ⟨_, _, u, v, ⟨rfl, rfl⟩, rfl, h3, h4⟩
    · omega
    · exact ⟨u, v, rfl, (h₁.accepts u).1 h3, (h₂.accepts v).1 (h4.restrict (m ≤ ·) hS₂ (by omega)).1⟩
  · rintro ⟨u, v, rfl, hu, hv⟩
    exact (((h₁.accepts u).2 hu).mono hE₁).append (.epsilon (.inr ⟨rfl, rfl, rfl⟩) (((h₂.accepts v).2 hv).mono hE₂))
  · exact (h₂.exit w).1 (h.restrict (m ≤ ·) hS₂ (by omega)).1
  · exact ((h₂.exit w).2 h).mono hE₂
  · rcases h.cross (· < m) (fun p q => p = b ∧ q = c) hS₁ (by omega) with ⟨h3, -⟩ | ⟨_, _, u, v, ⟨rfl, rfl⟩, rfl, h3, h4⟩
    · rcases h₁.entry w h3 with h | ⟨h5, h6⟩
      · exact .inl h
      · exact .inr ⟨⟨[], [], rfl, h5, hnil h5⟩, w, [], by simp, h6, hnil h5⟩
    · have := (h4.restrict (m ≤ ·) hS₂ (by omega)).2; omega
  · have := (h.restrict (m ≤ ·) hS₂ (by omega)).2; omega

/-- A fragment followed by another one, or nothing. -/
theorem frag_optional (h₁ : Frag E₁ n m a b A₁ X₁) (h₂ : Frag E₂ m k c d A₂ X₂) (hA₂ : A₂ []) (hX₂ : ∀ w, X₂ w → w = []) :
    Frag (((E₁.union E₂).union (.one a none d)).union (.one b none c)) n k a d (fun w => w = [] ∨ cat A₁ A₂ w) X₂ := by
  have := h₁.ha; have := h₁.hb; have := h₂.ha; have := h₂.hb
  have hS₂ : ∀ p l q, (((E₁.union E₂).union (.one a none d)).union (.one b none c)) p l q → m ≤ p → E₂ p l q ∧ m ≤ q := by
    rintro p l q (((h | h) | ⟨rfl, rfl, rfl⟩) | ⟨rfl, rfl, rfl⟩) hp
    · have := h₁.edges _ _ _ h; omega
    · exact ⟨h, (h₂.edges _ _ _ h).2.1⟩
    · omega
    · omega
  have hS₁ : ∀ p l q, (((E₁.union E₂).union (.one a none d)).union (.one b none c)) p l q → p < m → (E₁ p l q ∧ q < m) ∨
      (l = none ∧ ((p = a ∧ q = d) ∨ (p = b ∧ q = c))) := by
    rintro p l q (((h | h) | ⟨rfl, rfl, rfl⟩) | ⟨rfl, rfl, rfl⟩) hp
    · exact .inl ⟨h, (h₁.edges _ _ _ h).2.2⟩
    · have := h₂.edges _ _ _ h; omega
    · exact .inr ⟨rfl, .inl ⟨rfl, rfl⟩⟩
    · exact .inr ⟨rfl, .inr ⟨rfl, rfl⟩⟩
  have hE₁ : ∀ p l q, E₁ p l q → (((E₁.union E₂).union (.one a none d)).union (.one b none c)) p l q :=
    fun _ _ _ h => .inl (.inl (.inl h))
  have hE₂ : ∀ p l q, E₂ p l q → (((E₁.union E₂).union (.one a none d)).union (.one b none c)) p l q :=
    fun _ _ _ h => .inl (.inl (.inr h))
  have hentry : ∀ w, EPath E₁ a w a → w = [] ∨ cat A₁ A₂ w := by
    intro w h
    rcases h₁.entry w h with h | ⟨-, h⟩
    · exact .inl h
    · exact .inr ⟨w, [], by simp, h, hA₂⟩
  refine ⟨by omega, by omega, ?_, fun w => ⟨fun h => ?_, ?_⟩, fun w => ⟨fun h => ?_, fun h => ?_⟩, fun w h => ?_, fun w h => ?_⟩
  · rintro p l q (((h | h) | ⟨rfl, rfl, rfl⟩) | ⟨rfl, rfl, rfl⟩)
    · have := h₁.edges _ _ _ h; omega
    · have := h₂.edges _ _ _ h; omega
    · omega
    · omega
  · rcases h.cross (· < m) _ hS₁ (by omega) with ⟨-, h⟩ | ⟨_, _, u, v, ⟨rfl, rfl⟩ | ⟨rfl, rfl⟩, rfl, h3, h4⟩
    · omega
    · have := hX₂ v ((h₂.exit v).1 (h4.restrict (m ≤ ·) hS₂ (by omega)).1)
      subst this
      rw [List.append_nil]
      exact hentry u h3
    · exact .inr ⟨u, v, rfl, (h₁.accepts u).1 h3, (h₂.accepts v).1 (h4.restrict (m ≤ ·) hS₂ (by omega)).1⟩
  · rintro (rfl | ⟨u, v, rfl, hu, hv⟩)
    · exact .epsilon (.inl (.inr ⟨rfl, rfl, rfl⟩)) (.nil _)
    · exact (((h₁.accepts u).2 hu).mono hE₁).append (.epsilon (.inr ⟨rfl, rfl, rfl⟩) (((h₂.accepts v).2 hv).mono hE₂))
  · exact (h₂.exit w).1 (h.restrict (m ≤ ·) hS₂ (by omega)).1
  · exact ((h₂.exit w).2 h).mono hE₂
  · rcases h.cross (· < m) _ hS₁ (by omega) with ⟨h3, -⟩ | ⟨_, _, u, v, ⟨rfl, rfl⟩ | ⟨rfl, rfl⟩, rfl, h3, h4⟩
    · exact .inr ⟨.inl rfl, hentry w h3⟩
    · have := (h4.restrict (m ≤ ·) hS₂ (by omega)).2; omega
    · have := (h4.restrict (m ≤ ·) hS₂ (by omega)).2; omega
  · have := (h.restrict (m ≤ ·) hS₂ (by omega)).2; omega

/-- Unbounded repetition. -/
theorem frag_star (h₁ : Frag E₁ n m a b A₁ X₁) :
    Frag ((E₁.union (.one a none b)).union (.one b none a)) n m a b (Star fun w => A₁ w ∨ X₁ w) (Star fun w => A₁ w ∨ X₁ w) := by
  have := h₁.ha; have := h₁.hb
  have hbase : ∀ p q w, (p = a ∨ p = b) → (q = a ∨ q = b) → EPath E₁ p w q → Star (fun w => A₁ w ∨ X₁ w) w := by
    rintro p q w (rfl | rfl) (rfl | rfl) h
    · rcases h₁.entry w h with rfl | ⟨-, h⟩
      · exact .nil
      · exact .one (.inl h)
    · exact .one (.inl ((h₁.accepts w).1 h))
    · exact .one (.inl (h₁.back w h))
    · exact .one (.inr ((h₁.exit w).1 h))
  have hall : ∀ p q w, (p = a ∨ p = b) → (q = a ∨ q = b) →
      EPath ((E₁.union (.one a none b)).union (.one b none a)) p w q → Star (fun w => A₁ w ∨ X₁ w) w := by
    intro p q w hp hq h
    rcases h.loops (E₁ := E₁) (fun p => p = a ∨ p = b) (fun w => A₁ w ∨ X₁ w) (by
      rintro p l q ((h | ⟨rfl, rfl, rfl⟩) | ⟨rfl, rfl, rfl⟩)
      · exact .inl h
      · exact .inr ⟨rfl, .inl rfl, .inr rfl⟩
      · exact .inr ⟨rfl, .inr rfl, .inl rfl⟩) hbase with h | ⟨x, y, u, v, z, hx, hy, rfl, h1, h2, h3⟩
    · exact hbase p q w hp hq h
    · exact ((hbase _ _ _ hp hx h1).append h2).append (hbase _ _ _ hy hq h3)
  have hE₁ : ∀ p l q, E₁ p l q → ((E₁.union (.one a none b)).union (.one b none a)) p l q := fun _ _ _ h => .inl (.inl h)
  have hab : EPath ((E₁.union (.one a none b)).union (.one b none a)) a [] b := .epsilon (.inl (.inr ⟨rfl, rfl, rfl⟩)) (.nil _)
  have hba : EPath ((E₁.union (.one a none b)).union (.one b none a)) b [] a := .epsilon (.inr ⟨rfl, rfl, rfl⟩) (.nil _)
  have hloop : ∀ w, Star (fun w => A₁ w ∨ X₁ w) w → EPath ((E₁.union (.one a none b)).union (.one b none a)) b w b := by
    rintro w ⟨n, hn⟩
    induction n generalizing w with
    | zero => cases hn; exact .nil _
    | succ n ih =>
      obtain ⟨u, v, rfl, hu, hv⟩ := hn
      rcases hu with hu | hu
      · exact (hba.append (((h₁.accepts u).2 hu).mono hE₁)).append (ih v hv)
      · exact (((h₁.exit u).2 hu).mono hE₁).append (ih v hv)
  refine ⟨by omega, by omega, ?_, fun w => ⟨hall a b w (.inl rfl) (.inr rfl), fun h => hab.append (hloop w h)⟩,
    fun w => ⟨hall b b w (.inr rfl) (.inr rfl), hloop w⟩, fun w h => .inr ⟨.nil, hall a a w (.inl rfl) (.inl rfl) h⟩,
    fun w h => hall b a w (.inr rfl) (.inl rfl) h⟩
  rintro p l q ((h | ⟨rfl, rfl, rfl⟩) | ⟨rfl, rfl, rfl⟩)
  · exact h₁.edges _ _ _ h
  · omega
  · omega

end Two

end RegExp

end Verif
