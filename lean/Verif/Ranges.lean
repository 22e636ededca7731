import Verif.AutomatonDef

/-!
# Sets of characters and maps from ranges of characters

Models the part of the `btree_range_map` crate that the code uses: `RangeSet<char>` (`insert`, `remove`, `gaps`,
`complement`, `len`, iteration) and `RangeMap<char, V>` (`update`, `get`, iteration). The crate is a dependency that is not
available here; the definitions follow its documentation. A set is a list of ranges, increasing, not empty and not
adjacent; a map is a list of disjoint increasing ranges with a value.
-/

namespace Verif

namespace CharRange

/-- The character is in the range. -/
def Mem (r : CharRange) (c : Nat) : Prop := r.lo ≤ c ∧ c ≤ r.hi

instance (r : CharRange) (c : Nat) : Decidable (r.Mem c) := inferInstanceAs (Decidable (_ ∧ _))

theorem contains_iff (r : CharRange) (c : Nat) : r.contains c = true ↔ r.Mem c := by
  simp [contains, Mem]

theorem contains_iff' (r : CharRange) (c : Nat) : r.contains c = true ↔ r.lo ≤ c ∧ c ≤ r.hi := contains_iff r c

/-- The range contains no character. -/
def isEmpty (r : CharRange) : Bool := decide (r.hi < r.lo)

end CharRange

/-- The last character, `char::MAX`. -/
def lastChar : Nat := 0x10f7ff

/-- `RangeSet<char>`. -/
abbrev RangeSet := List CharRange

namespace RangeSet

/-- The character belongs to the set. -/
def Mem (s : RangeSet) (c : Nat) : Prop := ∃ r ∈ s, r.Mem c

instance (s : RangeSet) (c : Nat) : Decidable (s.Mem c) := inferInstanceAs (Decidable (∃ r ∈ s, r.Mem c))

/-- `RangeSet::insert`: overlapping and adjacent ranges are merged. -/
def insertNonempty (r : CharRange) : RangeSet → RangeSet
  | [] => [r]
  | s :: m =>
    if s.hi + 1 < r.lo then s :: insertNonempty r m
    else if r.hi + 1 < s.lo then r :: s :: m
    else insertNonempty ⟨min r.lo s.lo, max r.hi s.hi⟩ m

/-- `RangeSet::insert`. Nothing happens when the range is empty. -/
def insert (m : RangeSet) (r : CharRange) : RangeSet := if r.isEmpty then m else insertNonempty r m

/-- `RangeSet::remove`. -/
def remove (r : CharRange) : RangeSet → RangeSet
  | [] => []
  | s :: m =>
    if s.hi < r.lo then s :: remove r m
    else if r.hi < s.lo then s :: m
    else
      (if s.lo < r.lo then [⟨s.lo, r.lo - 1⟩] else []) ++
      (if r.hi < s.hi then ⟨r.hi + 1, s.hi⟩ :: m else remove r m)

/-- `RangeSet::gaps`, from the character `lo` on. -/
def gapsFrom (lo : Nat) : RangeSet → RangeSet
  | [] => if lo ≤ lastChar then [⟨lo, lastChar⟩] else []
  | s :: m => (if lo < s.lo then [⟨lo, s.lo - 1⟩] else []) ++ gapsFrom (s.hi + 1) m

/-- `RangeSet::gaps`: the ranges of characters that are not in the set. -/
def gaps (m : RangeSet) : RangeSet := gapsFrom 0 m

/-- `RangeSet::complement`. -/
def complement (m : RangeSet) : RangeSet := gaps m

/-- `RangeSet::len`: the number of characters in the set. -/
def len (m : RangeSet) : Nat := (m.map fun r => r.hi + 1 - r.lo).sum

/-- `charset_intersection`. `layouts/src/utils/mod.rs` L14-22. -/
def intersection (a b : RangeSet) : RangeSet := (gaps b).foldl (fun result r => remove r result) a

end RangeSet

/-- `RangeMap<char, V>`. -/
abbrev RangeMap (V : Type _) := List (CharRange × V)

namespace RangeMap

variable {V : Type _}

/-- `RangeMap::get`. -/
def get : RangeMap V → Nat → Option V
  | [], _ => none
  | (r, v) :: m, c => if r.contains c then some v else get m c

/-- The segment `r`, with the value `v` if there is one. -/
def segment (r : CharRange) : Option V → RangeMap V
  | some v => [(r, v)]
  | none => []

/-- `RangeMap::update`, for a range that is not empty: the value at each character of the range is changed by `f`. The
crate also merges adjacent ranges of equal values, which is not modelled. -/
def updateNonempty (f : Option V → Option V) : CharRange → RangeMap V → RangeMap V
  | r, [] => segment r (f none)
  | r, (s, v) :: m =>
    if s.hi < r.lo then (s, v) :: updateNonempty f r m
    else if r.hi < s.lo then segment r (f none) ++ (s, v) :: m
    else
      (if s.lo < r.lo then [(⟨s.lo, r.lo - 1⟩, v)] else if r.lo < s.lo then segment ⟨r.lo, s.lo - 1⟩ (f none) else []) ++
      segment ⟨max r.lo s.lo, min r.hi s.hi⟩ (f (some v)) ++
      (if r.hi < s.hi then (⟨r.hi + 1, s.hi⟩, v) :: m
       else if s.hi < r.hi then updateNonempty f ⟨s.hi + 1, r.hi⟩ m else m)

/-- `RangeMap::update`. -/
def update (m : RangeMap V) (r : CharRange) (f : Option V → Option V) : RangeMap V :=
  if r.isEmpty then m else updateNonempty f r m

end RangeMap

/-! ## Laws -/

namespace RangeSet

/-- Increasing, nonempty, non adjacent ranges. -/
def WF : RangeSet → Prop
  | [] => True
  | r :: m => r.lo ≤ r.hi ∧ (∀ s ∈ m, r.hi + 1 < s.lo) ∧ WF m

theorem mem_cons {r : CharRange} {m : RangeSet} {c : Nat} : Mem (r :: m) c ↔ r.Mem c ∨ Mem m c := by
  simp [Mem]

theorem mem_nil {c : Nat} : ¬ Mem [] c := by simp [Mem]

theorem WF.nonempty {m : RangeSet} (h : m.WF) : ∀ r ∈ m, r.lo ≤ r.hi := by
  induction m with
  | nil => simp
  | cons s m ih => simp only [List.mem_cons, forall_eq_or_imp]; exact ⟨h.1, ih h.2.2⟩

theorem mem_insertNonempty {r : CharRange} (hr : r.lo ≤ r.hi) {m : RangeSet} (h : ∀ s ∈ m, s.lo ≤ s.hi) (c : Nat) :
    Mem (insertNonempty r m) c ↔ r.Mem c ∨ Mem m c := by
  induction m generalizing r with
  | nil => simp [insertNonempty, Mem]
  | cons s m ih =>
    rw [List.forall_mem_cons] at h
    unfold insertNonempty
    split
    · rw [mem_cons, ih hr h.2, mem_cons]
      tauto
    · split
      · rw [mem_cons]
      · rw [ih (by simp only; omega) h.2, mem_cons, ← or_assoc]
        refine or_congr_left ?_
        simp only [CharRange.Mem]
        omega

theorem lo_insertNonempty {r : CharRange} (m : RangeSet) (b : Nat) (hr : b < r.lo) (h : ∀ s ∈ m, b < s.lo) :
    ∀ s ∈ insertNonempty r m, b < s.lo := by
  induction m generalizing r with
  | nil => simpa [insertNonempty] using hr
  | cons s m ih =>
    rw [List.forall_mem_cons] at h
    unfold insertNonempty
    split
    · rw [List.forall_mem_cons]
      exact ⟨h.1, ih hr h.2⟩
    · split
      · simp only [List.forall_mem_cons]
        exact ⟨hr, h⟩
      · exact ih (by simp only; omega) h.2

theorem wf_insertNonempty {r : CharRange} (hr : r.lo ≤ r.hi) {m : RangeSet} (h : m.WF) : (insertNonempty r m).WF := by
  induction m generalizing r with
  | nil => exact ⟨hr, by simp, trivial⟩
  | cons s m ih =>
    obtain ⟨h1, h2, h3⟩ := h
    unfold insertNonempty
    split
    · rename_i hlt
      exact ⟨h1, lo_insertNonempty _ _ hlt h2, ih hr h3⟩
    · split
      · rename_i hlt
        refine ⟨hr, ?_, h1, h2, h3⟩
        rw [List.forall_mem_cons]
        exact ⟨hlt, fun t ht => by have := h2 t ht; omega⟩
      · exact ih (by simp only; omega) h3

/-- Inserting a range adds its characters. -/
theorem mem_insert {m : RangeSet} (h : m.WF) (r : CharRange) (c : Nat) : Mem (m.insert r) c ↔ r.Mem c ∨ Mem m c := by
  unfold insert
  split
  · rename_i he
    simp only [CharRange.isEmpty, decide_eq_true_eq] at he
    have : ¬ r.Mem c := by simp only [CharRange.Mem]; omega
    simp [this]
  · rename_i he
    simp only [CharRange.isEmpty, decide_eq_true_eq] at he
    exact mem_insertNonempty (by omega) h.nonempty c

theorem wf_insert {m : RangeSet} (h : m.WF) (r : CharRange) : (m.insert r).WF := by
  unfold insert
  split
  · exact h
  · rename_i he
    simp only [CharRange.isEmpty, decide_eq_true_eq] at he
    exact wf_insertNonempty (by omega) h

theorem mem_of_lt {m : RangeSet} {b : Nat} (h : ∀ s ∈ m, b < s.lo) {c : Nat} (hc : Mem m c) : b < c := by
  obtain ⟨s, hs, h1⟩ := hc
  exact Nat.lt_of_lt_of_le (h s hs) h1.1

theorem lo_remove {r : CharRange} (m : RangeSet) (b : Nat) (h : ∀ s ∈ m, b < s.lo) : ∀ s ∈ remove r m, b < s.lo := by
  induction m with
  | nil => simp [remove]
  | cons s m ih =>
    rw [List.forall_mem_cons] at h
    unfold remove
    split
    · rw [List.forall_mem_cons]; exact ⟨h.1, ih h.2⟩
    · split
      · rw [List.forall_mem_cons]; exact h
      · rw [List.forall_mem_append]
        constructor
        · split
          · simpa using h.1
          · simp
        · split
          · rw [List.forall_mem_cons]; exact ⟨by simp only; omega, h.2⟩
          · exact ih h.2

theorem mem_remove {r : CharRange} {m : RangeSet} (h : m.WF) (c : Nat) : Mem (remove r m) c ↔ Mem m c ∧ ¬ r.Mem c := by
  induction m with
  | nil => simp [remove, Mem]
  | cons s m ih =>
    obtain ⟨h1, h2, h3⟩ := h
    have hlt : ∀ {c}, Mem m c → s.hi + 1 < c := fun hc => mem_of_lt h2 hc
    unfold remove
    split
    · rw [mem_cons, ih h3, mem_cons]
      simp only [CharRange.Mem]
      constructor
      · rintro (h | h)
        · exact ⟨.inl h, by omega⟩
        · exact ⟨.inr h.1, h.2⟩
      · rintro ⟨h | h, h'⟩
        · exact .inl h
        · exact .inr ⟨h, h'⟩
    · split
      · rw [mem_cons]
        simp only [CharRange.Mem]
        constructor
        · rintro (h | h)
          · exact ⟨.inl h, by omega⟩
          · exact ⟨.inr h, by have := hlt h; omega⟩
        · rintro ⟨h | h, -⟩
          · exact .inl h
          · exact .inr h
      · have happ : ∀ a b : RangeSet, Mem (a ++ b) c ↔ Mem a c ∨ Mem b c := by
          intro a b; simp only [Mem, List.mem_append]
          constructor
          · rintro ⟨r, h | h, h'⟩
            · exact .inl ⟨r, h, h'⟩
            · exact .inr ⟨r, h, h'⟩
          · rintro (⟨r, h, h'⟩ | ⟨r, h, h'⟩)
            · exact ⟨r, .inl h, h'⟩
            · exact ⟨r, .inr h, h'⟩
        have hleft : Mem (if s.lo < r.lo then [⟨s.lo, r.lo - 1⟩] else []) c ↔ s.lo ≤ c ∧ c < r.lo := by
          split
          · simp only [Mem, List.mem_singleton, exists_eq_left, CharRange.Mem]; omega
          · simp only [Mem, List.not_mem_nil, false_and, exists_false, false_iff]; omega
        rw [happ, hleft, mem_cons]
        split
        · rw [mem_cons]
          simp only [CharRange.Mem]
          constructor
          · rintro (h | h | h)
            · omega
            · omega
            · exact ⟨.inr h, by have := hlt h; omega⟩
          · rintro ⟨h | h, h'⟩
            · omega
            · exact .inr (.inr h)
        · rw [ih h3]
          simp only [CharRange.Mem]
          constructor
          · rintro (h | h)
            · omega
            · exact ⟨.inr h.1, h.2⟩
          · rintro ⟨h | h, h'⟩
            · omega
            · exact .inr ⟨h, h'⟩

theorem hi_remove {r : CharRange} {m : RangeSet} (h : m.WF) (hlo : ∀ s ∈ m, r.lo ≤ s.lo) :
    ∀ t ∈ remove r m, r.hi < t.lo := by
  induction m with
  | nil => simp [remove]
  | cons s m ih =>
    obtain ⟨h1, h2, h3⟩ := h
    rw [List.forall_mem_cons] at hlo
    unfold remove
    split
    · omega
    · split
      · rename_i hlt
        rw [List.forall_mem_cons]
        exact ⟨hlt, fun t ht => by have := h2 t ht; omega⟩
      · rw [List.forall_mem_append]
        refine ⟨by rw [if_neg (by omega)]; simp, ?_⟩
        split
        · rw [List.forall_mem_cons]
          exact ⟨by simp, fun t ht => by have := h2 t ht; omega⟩
        · exact ih h3 hlo.2

theorem wf_remove {r : CharRange} (hr : r.lo ≤ r.hi) {m : RangeSet} (h : m.WF) : (remove r m).WF := by
  induction m with
  | nil => exact trivial
  | cons s m ih =>
    obtain ⟨h1, h2, h3⟩ := h
    unfold remove
    split
    · exact ⟨h1, lo_remove _ _ h2, ih h3⟩
    · split
      · exact ⟨h1, h2, h3⟩
      · have hrest : WF (if r.hi < s.hi then ⟨r.hi + 1, s.hi⟩ :: m else remove r m) ∧
            (∀ t ∈ (if r.hi < s.hi then ⟨r.hi + 1, s.hi⟩ :: m else remove r m), r.hi < t.lo) := by
          split
          · refine ⟨⟨by simp only; omega, h2, h3⟩, ?_⟩
            rw [List.forall_mem_cons]
            exact ⟨by simp, fun t ht => by have := h2 t ht; omega⟩
          · exact ⟨ih h3, hi_remove h3 fun t ht => by have := h2 t ht; omega⟩
        split
        · refine ⟨by simp only; omega, fun t ht => ?_, hrest.1⟩
          have := hrest.2 t ht
          simp only
          omega
        · exact hrest.1

theorem gapsFrom_spec (m : RangeSet) (h : m.WF) (lo : Nat) (hlo : ∀ s ∈ m, lo ≤ s.lo) (c : Nat) :
    Mem (gapsFrom lo m) c ↔ lo ≤ c ∧ ¬ Mem m c ∧ (c ≤ lastChar ∨ ∃ s ∈ m, c < s.lo) := by
  induction m generalizing lo with
  | nil =>
    unfold gapsFrom
    split
    · simp [Mem, CharRange.Mem]
    · simp only [mem_nil, List.not_mem_nil, false_and, exists_false, or_false, not_false_iff, true_and, false_iff]
      omega
  | cons s m ih =>
    obtain ⟨h1, h2, h3⟩ := h
    rw [List.forall_mem_cons] at hlo
    have happ : ∀ a b : RangeSet, Mem (a ++ b) c ↔ Mem a c ∨ Mem b c := by
      intro a b
      simp only [Mem, List.mem_append]
      constructor
      · rintro ⟨r, h | h, h'⟩
        · exact .inl ⟨r, h, h'⟩
        · exact .inr ⟨r, h, h'⟩
      · rintro (⟨r, h, h'⟩ | ⟨r, h, h'⟩)
        · exact ⟨r, .inl h, h'⟩
        · exact ⟨r, .inr h, h'⟩
    have hleft : Mem (if lo < s.lo then [⟨lo, s.lo - 1⟩] else []) c ↔ lo ≤ c ∧ c < s.lo := by
      split
      · simp only [Mem, List.mem_singleton, exists_eq_left, CharRange.Mem]; omega
      · simp only [Mem, List.not_mem_nil, false_and, exists_false, false_iff]; omega
    unfold gapsFrom
    rw [happ, hleft, ih h3 _ (fun t ht => by have := h2 t ht; omega), mem_cons]
    simp only [CharRange.Mem, List.mem_cons, exists_eq_or_imp]
    have hlt : Mem m c → s.hi + 1 < c := fun hc => mem_of_lt h2 hc
    constructor
    · rintro (h | ⟨h, h', h''⟩)
      · exact ⟨h.1, by intro hc; rcases hc with hc | hc <;> [omega; (have := hlt hc; omega)], .inr (.inl h.2)⟩
      · exact ⟨by omega, by rintro (hc | hc) <;> [omega; exact h' hc], by rcases h'' with h'' | h'' <;> simp [h'']⟩
    · rintro ⟨h, h', h''⟩
      by_cases hc : c < s.lo
      · exact .inl ⟨h, hc⟩
      · refine .inr ⟨?_, fun hm => h' (.inr hm), ?_⟩
        · have : ¬ (s.lo ≤ c ∧ c ≤ s.hi) := fun hh => h' (.inl hh)
          omega
        · rcases h'' with h'' | h'' | h''
          · exact .inl h''
          · omega
          · exact .inr h''

/-- All the characters of the set are characters. -/
def Valid (m : RangeSet) : Prop := ∀ r ∈ m, r.hi ≤ lastChar

theorem Valid.le {m : RangeSet} (h : m.Valid) {c : Nat} (hc : Mem m c) : c ≤ lastChar := by
  obtain ⟨r, hr, hc⟩ := hc
  exact Nat.le_trans hc.2 (h r hr)

/-- The gaps of a set are its complement. -/
theorem mem_gaps {m : RangeSet} (h : m.WF) (hv : m.Valid) (c : Nat) : Mem (gaps m) c ↔ c ≤ lastChar ∧ ¬ Mem m c := by
  unfold gaps
  rw [gapsFrom_spec m h 0 (by simp)]
  constructor
  · rintro ⟨-, h1, h2 | ⟨s, hs, h2⟩⟩
    · exact ⟨h2, h1⟩
    · exact ⟨by have := hv s hs; have := h.nonempty s hs; omega, h1⟩
  · rintro ⟨h1, h2⟩
    exact ⟨Nat.zero_le _, h2, .inl h1⟩

theorem lo_gapsFrom (m : RangeSet) (lo k : Nat) (h : k ≤ lo) (hk : ∀ s ∈ m, k ≤ s.hi + 1) : ∀ r ∈ gapsFrom lo m, k ≤ r.lo := by
  induction m generalizing lo with
  | nil =>
    unfold gapsFrom
    split <;> simp [h]
  | cons s m ih =>
    rw [List.forall_mem_cons] at hk
    unfold gapsFrom
    rw [List.forall_mem_append]
    refine ⟨?_, ih _ hk.1 hk.2⟩
    split <;> simp [h]

theorem wf_gapsFrom (m : RangeSet) (h : m.WF) (lo : Nat) : (gapsFrom lo m).WF := by
  induction m generalizing lo with
  | nil =>
    unfold gapsFrom
    split
    · rename_i hl
      exact ⟨hl, by simp, trivial⟩
    · trivial
  | cons s m ih =>
    obtain ⟨h1, h2, h3⟩ := h
    unfold gapsFrom
    split
    · refine ⟨by simp only; omega, fun t ht => ?_, ih h3 _⟩
      have := lo_gapsFrom m (s.hi + 1) (s.hi + 1) (Nat.le_refl _)
        (fun t ht => by have := h2 t ht; have := h3.nonempty t ht; omega) t ht
      simp only
      omega
    · exact ih h3 _

theorem wf_gaps {m : RangeSet} (h : m.WF) : (gaps m).WF := wf_gapsFrom m h 0

theorem mem_foldl_remove (l : List CharRange) (hl : ∀ r ∈ l, r.lo ≤ r.hi) (a : RangeSet) (h : a.WF) (c : Nat) :
    (l.foldl (fun result r => remove r result) a).WF ∧
      (Mem (l.foldl (fun result r => remove r result) a) c ↔ Mem a c ∧ ¬ Mem l c) := by
  induction l generalizing a with
  | nil => exact ⟨h, by simp [mem_nil]⟩
  | cons r l ih =>
    rw [List.forall_mem_cons] at hl
    obtain ⟨h1, h2⟩ := ih hl.2 (remove r a) (wf_remove hl.1 h)
    refine ⟨h1, ?_⟩
    rw [List.foldl_cons, h2, mem_remove h, mem_cons]
    tauto

/-- `charset_intersection` computes the intersection of two sets of characters. -/
theorem mem_intersection {a b : RangeSet} (ha : a.WF) (hav : a.Valid) (hb : b.WF) (hbv : b.Valid) (c : Nat) :
    Mem (intersection a b) c ↔ Mem a c ∧ Mem b c := by
  unfold intersection
  rw [(mem_foldl_remove _ (wf_gaps hb).nonempty a ha c).2, mem_gaps hb hbv]
  constructor
  · rintro ⟨h1, h2⟩
    exact ⟨h1, Classical.byContradiction fun h => h2 ⟨hav.le h1, h⟩⟩
  · rintro ⟨h1, h2⟩
    exact ⟨h1, fun h => h.2 h2⟩

theorem wf_intersection {a b : RangeSet} (ha : a.WF) (hb : b.WF) : (intersection a b).WF :=
  (mem_foldl_remove _ (wf_gaps hb).nonempty a ha 0).1

theorem mem_complement {m : RangeSet} (h : m.WF) (hv : m.Valid) (c : Nat) :
    Mem (complement m) c ↔ c ≤ lastChar ∧ ¬ Mem m c := mem_gaps h hv c

end RangeSet

namespace RangeMap

variable {V : Type _}

/-- Increasing, nonempty, disjoint ranges. -/
def WF : RangeMap V → Prop
  | [] => True
  | (r, _) :: m => r.lo ≤ r.hi ∧ (∀ s ∈ m, r.hi < s.1.lo) ∧ WF m

theorem get_eq_none_of_lt {m : RangeMap V} {b : Nat} (h : ∀ s ∈ m, b < s.1.lo) {c : Nat} (hc : c ≤ b) : get m c = none := by
  induction m with
  | nil => rfl
  | cons s m ih =>
    obtain ⟨s, v⟩ := s
    rw [List.forall_mem_cons] at h
    have : s.contains c = false := by
      simp only [CharRange.contains, Bool.and_eq_false_iff, decide_eq_false_iff_not]
      have := h.1
      simp only at this
      omega
    simp only [get, this]
    exact ih h.2

theorem get_append (a b : RangeMap V) (c : Nat) : get (a ++ b) c = (get a c).or (get b c) := by
  induction a with
  | nil => rfl
  | cons s a ih =>
    obtain ⟨s, v⟩ := s
    simp only [List.cons_append, get]
    split
    · rfl
    · exact ih

theorem get_segment (r : CharRange) (v : Option V) (c : Nat) : get (segment r v) c = if r.contains c then v else none := by
  cases v <;> simp [segment, get]

theorem get_updateNonempty (f : Option V → Option V) (r : CharRange) (hr : r.lo ≤ r.hi) (m : RangeMap V) (h : m.WF)
    (c : Nat) : get (updateNonempty f r m) c = if r.contains c then f (get m c) else get m c := by
  induction m generalizing r with
  | nil => simp only [updateNonempty, get_segment, get]
  | cons s m ih =>
    obtain ⟨s, v⟩ := s
    obtain ⟨h1, h2, h3⟩ := h
    have hn : c ≤ s.hi → get m c = none := fun hc => get_eq_none_of_lt h2 hc
    unfold updateNonempty
    split
    · simp only [get, ih r hr h3]
      by_cases hs : s.contains c
      · have : ¬ r.contains c := by
          simp only [CharRange.contains_iff, CharRange.Mem] at *
          omega
        simp [hs, this]
      · simp [hs]
    · split
      · simp only [get_append, get_segment, get]
        by_cases hs : r.contains c
        · have : ¬ s.contains c := by
            simp only [CharRange.contains_iff, CharRange.Mem] at *
            omega
          have hc : c ≤ s.hi := by
            simp only [CharRange.contains_iff, CharRange.Mem] at *
            omega
          simp [hs, this, hn hc]
        · simp [hs]
      · simp only [get_append, get_segment]
        have hleft : get (if s.lo < r.lo then [(⟨s.lo, r.lo - 1⟩, v)]
            else if r.lo < s.lo then segment ⟨r.lo, s.lo - 1⟩ (f none) else []) c =
            if (s.lo ≤ c ∧ c ≤ s.hi) ∧ c < r.lo then some v else if (r.lo ≤ c ∧ c ≤ r.hi) ∧ c < s.lo then f none else none := by
          split
          · rw [if_neg (c := (r.lo ≤ c ∧ c ≤ r.hi) ∧ c < s.lo) (by omega)]
            simp only [get, CharRange.contains_iff']
            exact if_congr (by omega) rfl rfl
          · rw [if_neg (c := (s.lo ≤ c ∧ c ≤ s.hi) ∧ c < r.lo) (by omega)]
            split
            · simp only [get_segment, CharRange.contains_iff']
              exact if_congr (by omega) rfl rfl
            · rw [if_neg (by omega)]
              rfl
        have hright : get (if r.hi < s.hi then (⟨r.hi + 1, s.hi⟩, v) :: m
            else if s.hi < r.hi then updateNonempty f ⟨s.hi + 1, r.hi⟩ m else m) c =
            if c ≤ r.hi ∧ c ≤ s.hi then none else if s.lo ≤ c ∧ c ≤ s.hi then some v
            else if r.lo ≤ c ∧ c ≤ r.hi then f (get m c) else get m c := by
          by_cases hc : c ≤ r.hi ∧ c ≤ s.hi
          · rw [if_pos hc]
            split
            · simp only [get, CharRange.contains_iff']
              rw [if_neg (by omega), hn hc.2]
            · split
              · rw [ih _ (by simp only; omega) h3, hn hc.2, if_neg]
                simp only [CharRange.contains_iff']
                omega
              · exact hn hc.2
          · rw [if_neg hc]
            split
            · simp only [get, CharRange.contains_iff']
              rw [if_neg (c := r.lo ≤ c ∧ c ≤ r.hi) (by omega)]
              exact if_congr (by omega) rfl rfl
            · rw [if_neg (c := s.lo ≤ c ∧ c ≤ s.hi) (by omega)]
              split
              · rw [ih _ (by simp only; omega) h3]
                simp only [CharRange.contains_iff']
                exact if_congr (by omega) rfl rfl
              · rw [if_neg (by omega)]
        rw [hleft, hright]
        simp only [get, CharRange.contains_iff']
        by_cases hA : s.lo ≤ c ∧ c ≤ s.hi
        · by_cases hB : r.lo ≤ c ∧ c ≤ r.hi
          · have e1 : ¬ c < r.lo := by omega
            have e2 : ¬ c < s.lo := by omega
            have e3 : max r.lo s.lo ≤ c ∧ c ≤ min r.hi s.hi := by omega
            have e4 : c ≤ r.hi ∧ c ≤ s.hi := by omega
            simp [hA, hB, e1, e2, e3, e4]
          · have e3 : ¬ (max r.lo s.lo ≤ c ∧ c ≤ min r.hi s.hi) := by omega
            by_cases hlt : c < r.lo
            · simp only [if_pos hA, if_neg hB, if_neg e3, hA, hlt, and_self, if_true]
              rfl
            · have e4 : ¬ (c ≤ r.hi ∧ c ≤ s.hi) := by omega
              simp only [if_pos hA, if_neg hB, if_neg e3, hlt, and_false, if_false, if_neg e4, hB, false_and]
              rfl
        · have e3 : ¬ (max r.lo s.lo ≤ c ∧ c ≤ min r.hi s.hi) := by omega
          simp only [if_neg hA, if_neg e3, hA, false_and, if_false]
          by_cases hB : r.lo ≤ c ∧ c ≤ r.hi
          · by_cases hlt : c < s.lo
            · have e4 : c ≤ r.hi ∧ c ≤ s.hi := by omega
              rw [if_pos ⟨hB, hlt⟩, if_pos e4, if_pos hB, hn e4.2]
              simp
            · have e4 : ¬ (c ≤ r.hi ∧ c ≤ s.hi) := by omega
              rw [if_neg (by omega), if_neg e4, if_pos hB]
              rfl
          · rw [if_neg (by omega), if_neg hB]
            by_cases e4 : c ≤ r.hi ∧ c ≤ s.hi
            · rw [if_pos e4, hn e4.2]; rfl
            · rw [if_neg e4]; rfl

theorem wf_append {a b : RangeMap V} (k : Nat) (ha : a.WF) (hb : b.WF) (hak : ∀ s ∈ a, s.1.hi < k) (hbk : ∀ s ∈ b, k ≤ s.1.lo) :
    WF (a ++ b) := by
  induction a with
  | nil => exact hb
  | cons s a ih =>
    obtain ⟨s, v⟩ := s
    obtain ⟨h1, h2, h3⟩ := ha
    rw [List.forall_mem_cons] at hak
    refine ⟨h1, ?_, ih h3 hak.2⟩
    show ∀ t ∈ a ++ b, s.hi < t.1.lo
    rw [List.forall_mem_append]
    exact ⟨h2, fun t ht => Nat.lt_of_lt_of_le hak.1 (hbk t ht)⟩

theorem wf_segment {r : CharRange} (hr : r.lo ≤ r.hi) (v : Option V) : WF (segment r v) := by
  cases v with
  | none => trivial
  | some v => exact ⟨hr, by simp, trivial⟩

theorem segment_mem {r : CharRange} {v : Option V} : ∀ s ∈ segment r v, s.1 = r := by
  cases v <;> simp [segment]

theorem lo_updateNonempty (f : Option V → Option V) (r : CharRange) (m : RangeMap V) (k : Nat) (hr : k ≤ r.lo)
    (h : ∀ s ∈ m, k ≤ s.1.lo) : ∀ s ∈ updateNonempty f r m, k ≤ s.1.lo := by
  induction m generalizing r with
  | nil =>
    intro s hs
    rw [segment_mem s hs]
    exact hr
  | cons s m ih =>
    obtain ⟨s, v⟩ := s
    rw [List.forall_mem_cons] at h
    obtain ⟨h1, h2⟩ := h
    simp only at h1
    unfold updateNonempty
    split
    · rw [List.forall_mem_cons]
      exact ⟨h1, ih r hr h2⟩
    · split
      · rw [List.forall_mem_append, List.forall_mem_cons]
        exact ⟨fun t ht => by rw [segment_mem t ht]; exact hr, h1, h2⟩
      · rw [List.forall_mem_append, List.forall_mem_append]
        refine ⟨⟨?_, fun t ht => ?_⟩, ?_⟩
        · split
          · simpa using h1
          · split
            · intro t ht; rw [segment_mem t ht]; exact hr
            · simp
        · rw [segment_mem t ht]; simp only; omega
        · split
          · rw [List.forall_mem_cons]; exact ⟨by simp only; omega, h2⟩
          · split
            · rename_i hd _ _ _; exact ih _ (by simp only; omega) h2
            · exact h2

theorem wf_updateNonempty (f : Option V → Option V) (r : CharRange) (hr : r.lo ≤ r.hi) (m : RangeMap V) (h : m.WF) :
    WF (updateNonempty f r m) := by
  induction m generalizing r with
  | nil => exact wf_segment hr _
  | cons s m ih =>
    obtain ⟨s, v⟩ := s
    obtain ⟨h1, h2, h3⟩ := h
    unfold updateNonempty
    split
    · rename_i hlt
      exact ⟨h1, lo_updateNonempty f r m (s.hi + 1) hlt h2, ih r hr h3⟩
    · split
      · rename_i hlt
        refine wf_append s.lo (wf_segment hr _) ⟨h1, h2, h3⟩ (fun t ht => by rw [segment_mem t ht]; exact hlt) ?_
        rw [List.forall_mem_cons]
        exact ⟨Nat.le_refl _, fun t ht => by have := h2 t ht; omega⟩
      · refine wf_append (min r.hi s.hi + 1) (wf_append (max r.lo s.lo) ?_ (wf_segment (by simp only; omega) _) ?_ ?_) ?_ ?_ ?_
        · split
          · exact ⟨by simp only; omega, by simp, trivial⟩
          · split
            · exact wf_segment (by simp only; omega) _
            · trivial
        · split
          · simp only [List.mem_singleton, forall_eq]; omega
          · split
            · intro t ht; rw [segment_mem t ht]; simp only; omega
            · simp
        · intro t ht; rw [segment_mem t ht]; exact Nat.le_refl _
        · split
          · exact ⟨by simp only; omega, h2, h3⟩
          · split
            · exact ih _ (by simp only; omega) h3
            · exact h3
        · rw [List.forall_mem_append]
          constructor
          · split
            · simp only [List.mem_singleton, forall_eq]; omega
            · split
              · intro t ht; rw [segment_mem t ht]; simp only; omega
              · simp
          · intro t ht; rw [segment_mem t ht]; simp only; omega
        · split
          · rw [List.forall_mem_cons]
            exact ⟨by simp only; omega, fun t ht => by have := h2 t ht; omega⟩
          · split
            · exact lo_updateNonempty f _ m _ (by simp only; omega) fun t ht => by have := h2 t ht; omega
            · intro t ht; have := h2 t ht; omega

/-- Updating a range changes the values at its characters, and only those. -/
theorem get_update {m : RangeMap V} (h : m.WF) (r : CharRange) (f : Option V → Option V) (c : Nat) :
    get (m.update r f) c = if r.contains c then f (get m c) else get m c := by
  unfold update
  split
  · rename_i he
    simp only [CharRange.isEmpty, decide_eq_true_eq] at he
    rw [if_neg]
    simp only [CharRange.contains_iff, CharRange.Mem]
    omega
  · rename_i he
    simp only [CharRange.isEmpty, decide_eq_true_eq] at he
    exact get_updateNonempty f r (by omega) m h c

theorem wf_update {m : RangeMap V} (h : m.WF) (r : CharRange) (f : Option V → Option V) : (m.update r f).WF := by
  unfold update
  split
  · exact h
  · rename_i he
    simp only [CharRange.isEmpty, decide_eq_true_eq] at he
    exact wf_updateNonempty f r (by omega) m h

/-- The entries of a map, by characters. -/
theorem get_eq_some {m : RangeMap V} (h : m.WF) {c : Nat} {v : V} : get m c = some v ↔ ∃ r, (r, v) ∈ m ∧ r.Mem c := by
  induction m with
  | nil => simp [get]
  | cons s m ih =>
    obtain ⟨s, w⟩ := s
    obtain ⟨h1, h2, h3⟩ := h
    simp only [get, List.mem_cons, Prod.mk.injEq]
    split
    · rename_i hc
      rw [CharRange.contains_iff] at hc
      constructor
      · rintro ⟨⟩
        exact ⟨s, .inl ⟨rfl, rfl⟩, hc⟩
      · rintro ⟨r, ⟨rfl, rfl⟩ | hr, hm⟩
        · rfl
        · have h2' := h2 _ hr
          simp only [CharRange.Mem] at hc hm h2'
          omega
    · rename_i hc
      rw [CharRange.contains_iff] at hc
      rw [ih h3]
      constructor
      · rintro ⟨r, hr, hm⟩; exact ⟨r, .inr hr, hm⟩
      · rintro ⟨r, ⟨rfl, rfl⟩ | hr, hm⟩
        · exact absurd hm hc
        · exact ⟨r, hr, hm⟩

end RangeMap

end Verif
