import Verif.RegExpSpec

/-! # Parsing of bracket expressions -/

set_option linter.unusedSectionVars false
set_option linter.unusedSimpArgs false

namespace Verif

namespace RegExp

/-- All the ranges are added. -/
def insertAll (s : RangeSet) (items : List CharRange) : RangeSet := items.foldl RangeSet.insert s

/-- The set that is returned. -/
def finish (negate : Bool) (s : RangeSet) : RangeSet := if negate then s.complement else s

theorem escape_iff (x c : Nat) : Escape x c ↔ c = unescape x := by
  have h : ∀ x, Escape x (unescape x) := by
    intro x
    unfold unescape
    repeat' split
    all_goals first
      | (rename_i h; subst h; left; decide)
      | skip
    right
    refine ⟨?_, rfl⟩
    simp only [escapes, List.map_cons, List.map_nil, List.mem_cons, List.not_mem_nil, or_false, not_or]
    simp_all
  constructor
  · rintro (hc | ⟨hx, rfl⟩)
    · have : ∀ p ∈ escapes, p.2 = unescape p.1 := by decide
      exact this _ hc
    · rcases h c with h' | h'
      · exact absurd (List.mem_map.2 ⟨_, h', rfl⟩) hx
      · exact h'.2.symm
  · rintro rfl
    exact h x

theorem parseCharset_rangeEnd (start : Nat) (negate : Bool) (s : RangeSet) (c : Nat) (cs : List Nat) :
    parseCharset (.rangeEnd start) negate s (c :: cs) =
      if c = '\\'.toNat then
        match cs with
        | [] => .error .incompleteEscapeSequence
        | c :: cs => parseCharset .rangeStart negate (RangeSet.insert s ⟨start, unescape c⟩) cs
      else parseCharset .rangeStart negate (RangeSet.insert s ⟨start, c⟩) cs := by
  rw [parseCharset.eq_def]
  rfl

theorem parseCharset_rangeDash (start : Nat) (negate : Bool) (s : RangeSet) (c : Nat) (cs : List Nat) :
    parseCharset (.rangeDashOrStart start) negate s (c :: cs) =
      if c = '-'.toNat then parseCharset (.rangeEnd start) negate s cs
      else if c = ']'.toNat then .ok (finish negate (RangeSet.insert s ⟨start, start⟩), cs)
      else if c = '\\'.toNat then
        match cs with
        | [] => .error .incompleteEscapeSequence
        | c :: cs => parseCharset (.rangeDashOrStart (unescape c)) negate (RangeSet.insert s ⟨start, start⟩) cs
      else parseCharset (.rangeDashOrStart c) negate (RangeSet.insert s ⟨start, start⟩) cs := by
  rw [parseCharset.eq_def]
  rfl

theorem parseCharset_rangeStart (negate : Bool) (s : RangeSet) (c : Nat) (cs : List Nat) :
    parseCharset .rangeStart negate s (c :: cs) =
      if c = ']'.toNat then .ok (finish negate s, cs)
      else if c = '\\'.toNat then
        match cs with
        | [] => .error .incompleteEscapeSequence
        | c :: cs => parseCharset (.rangeDashOrStart (unescape c)) negate s cs
      else parseCharset (.rangeDashOrStart c) negate s cs := by
  rw [parseCharset.eq_def]
  simp only [reduceCtorEq, and_false, if_false]
  rfl

theorem parseCharset_start (negate : Bool) (s : RangeSet) (c : Nat) (cs : List Nat) :
    parseCharset .start negate s (c :: cs) =
      if c = '^'.toNat then parseCharset .rangeStart true s cs else parseCharset .rangeStart negate s (c :: cs) := by
  rw [parseCharset_rangeStart, parseCharset.eq_def]
  simp only [and_true]
  rfl

theorem parse_rangeEnd {t : List Nat} {c : Nat} (h : WrittenEnd t c) (a : Nat) (negate : Bool) (s : RangeSet) (rest : List Nat) :
    parseCharset (.rangeEnd a) negate s (t ++ rest) = parseCharset .rangeStart negate (RangeSet.insert s ⟨a, c⟩) rest := by
  cases h with
  | plain h1 => simp only [List.singleton_append, parseCharset_rangeEnd, if_neg h1]
  | escape h1 =>
    rw [escape_iff] at h1
    subst h1
    simp only [List.cons_append, List.nil_append, parseCharset_rangeEnd, if_true]

theorem parse_first {t : List Nat} {c : Nat} (h : Written t c) (negate : Bool) (s : RangeSet) (rest : List Nat) :
    parseCharset .rangeStart negate s (t ++ rest) = parseCharset (.rangeDashOrStart c) negate s rest := by
  cases h with
  | plain h1 h2 =>
    simp only [List.singleton_append, parseCharset_rangeStart, if_neg h1, if_neg h2]
  | escape h1 =>
    rw [escape_iff] at h1
    subst h1
    simp only [List.cons_append, List.nil_append, parseCharset_rangeStart, if_true]
    rw [if_neg (by decide)]

theorem parse_next {t : List Nat} {c : Nat} (h : Written t c) (hd : t ≠ ['-'.toNat]) (a : Nat) (negate : Bool) (s : RangeSet)
    (rest : List Nat) : parseCharset (.rangeDashOrStart a) negate s (t ++ rest) =
      parseCharset (.rangeDashOrStart c) negate (RangeSet.insert s ⟨a, a⟩) rest := by
  cases h with
  | plain h1 h2 =>
    have h3 : c ≠ '-'.toNat := fun h => hd (by rw [h])
    simp only [List.singleton_append, parseCharset_rangeDash, if_neg h1, if_neg h2, if_neg h3]
  | escape h1 =>
    rw [escape_iff] at h1
    subst h1
    simp only [List.cons_append, List.nil_append, parseCharset_rangeDash, if_true]
    rw [if_neg (by decide), if_neg (by decide)]

theorem parse_dash (a : Nat) (negate : Bool) (s : RangeSet) (rest : List Nat) :
    parseCharset (.rangeDashOrStart a) negate s ('-'.toNat :: rest) = parseCharset (.rangeEnd a) negate s rest := by
  simp only [parseCharset_rangeDash, if_true]

theorem parse_body {after : Bool} {body : List Nat} {items : List CharRange} (h : ClassBody after body items) (negate : Bool)
    (s : RangeSet) (rest : List Nat) :
    (after = false → parseCharset .rangeStart negate s (body ++ ']'.toNat :: rest) = .ok (finish negate (insertAll s items), rest)) ∧
    (after = true → ∀ a, parseCharset (.rangeDashOrStart a) negate s (body ++ ']'.toNat :: rest) =
      .ok (finish negate (insertAll (RangeSet.insert s ⟨a, a⟩) items), rest)) := by
  induction h generalizing s with
  | nil after =>
    constructor
    · intro _
      simp only [List.nil_append, parseCharset_rangeStart, if_true]
      rfl
    · intro _ a
      simp only [List.nil_append, parseCharset_rangeDash, if_true]
      rw [if_neg (by decide)]
      rfl
  | char h1 h2 _ ih =>
    constructor
    · intro _
      rw [List.append_assoc, parse_first h1]
      exact (ih s).2 rfl _
    · intro h a
      rw [List.append_assoc, parse_next h1 (h2 h)]
      exact (ih _).2 rfl _
  | range h1 h2 h3 _ ih =>
    constructor
    · intro _
      rw [List.append_assoc, parse_first h1, List.cons_append, parse_dash, List.append_assoc, parse_rangeEnd h3]
      exact (ih _).1 rfl
    · intro h a
      rw [List.append_assoc, parse_next h1 (h2 h), List.cons_append, parse_dash, List.append_assoc, parse_rangeEnd h3]
      exact (ih _).1 rfl

/-- What was read, for each state. -/
def Read (st : CharsetState) (negate : Bool) (s : RangeSet) (text rest : List Nat) (r : RangeSet) : Prop :=
  match st with
  | .start => True
  | .rangeStart => ∃ body items, ClassBody false body items ∧ text = body ++ ']'.toNat :: rest ∧
      r = finish negate (insertAll s items)
  | .rangeDashOrStart a =>
      (∃ body items, ClassBody true body items ∧ text = body ++ ']'.toNat :: rest ∧
        r = finish negate (insertAll (RangeSet.insert s ⟨a, a⟩) items)) ∨
      ∃ t c body items, WrittenEnd t c ∧ ClassBody false body items ∧
        text = '-'.toNat :: (t ++ (body ++ ']'.toNat :: rest)) ∧ r = finish negate (insertAll (RangeSet.insert s ⟨a, c⟩) items)
  | .rangeEnd a => ∃ t c body items, WrittenEnd t c ∧ ClassBody false body items ∧ text = t ++ (body ++ ']'.toNat :: rest) ∧
      r = finish negate (insertAll (RangeSet.insert s ⟨a, c⟩) items)

theorem read_of_char {t : List Nat} {c : Nat} (ht : Written t c) {negate : Bool} {s : RangeSet} {text rest : List Nat}
    {r : RangeSet} (h : Read (.rangeDashOrStart c) negate s text rest r) (after : Bool) (hd : after = true → t ≠ ['-'.toNat]) :
    ∃ body items, ClassBody after body items ∧ t ++ text = body ++ ']'.toNat :: rest ∧ r = finish negate (insertAll s items) := by
  rcases h with ⟨body, items, h1, rfl, h2⟩ | ⟨t', c', body, items, h1, h2, rfl, h3⟩
  · exact ⟨t ++ body, _, .char ht hd h1, by simp, h2⟩
  · exact ⟨t ++ '-'.toNat :: (t' ++ body), _, .range ht hd h1 h2, by simp, h3⟩

theorem parse_read (n : Nat) : ∀ (st : CharsetState) (negate : Bool) (s : RangeSet) (text rest : List Nat) (r : RangeSet),
    text.length ≤ n → parseCharset st negate s text = .ok (r, rest) → Read st negate s text rest r := by
  induction n with
  | zero =>
    intro st negate s text rest r hl h
    obtain rfl : text = [] := List.eq_nil_of_length_eq_zero (by omega)
    simp [parseCharset] at h
  | succ n ih =>
    intro st negate s text rest r hl h
    cases text with
    | nil => simp [parseCharset] at h
    | cons c cs =>
      have hcs : cs.length ≤ n := by simpa using hl
      have esc : ∀ x cs', cs = x :: cs' → cs'.length ≤ n := by
        rintro x cs' rfl
        simp only [List.length_cons] at hcs
        omega
      cases st with
      | start => trivial
      | rangeStart =>
        simp only [parseCharset_rangeStart] at h
        split at h
        · rename_i hc
          subst hc
          simp only [Except.ok.injEq, Prod.mk.injEq] at h
          obtain ⟨rfl, rfl⟩ := h
          exact ⟨[], [], .nil _, rfl, rfl⟩
        · rename_i hc
          split at h
          · rename_i hc'
            subst hc'
            split at h
            · simp at h
            · rename_i x cs'
              exact read_of_char (.escape ((escape_iff _ _).2 rfl)) (ih _ _ _ _ _ _ (esc _ _ rfl) h) false (by simp)
          · rename_i hc'
            exact read_of_char (.plain hc' hc) (ih _ _ _ _ _ _ hcs h) false (by simp)
      | rangeDashOrStart a =>
        simp only [parseCharset_rangeDash] at h
        split at h
        · rename_i hc
          subst hc
          obtain ⟨t, c, body, items, h1, h2, rfl, h3⟩ := ih _ _ _ _ _ _ hcs h
          exact .inr ⟨t, c, body, items, h1, h2, rfl, h3⟩
        · rename_i hd
          split at h
          · rename_i hc
            subst hc
            simp only [Except.ok.injEq, Prod.mk.injEq] at h
            obtain ⟨rfl, rfl⟩ := h
            exact .inl ⟨[], [], .nil _, rfl, rfl⟩
          · rename_i hc
            split at h
            · rename_i hc'
              subst hc'
              split at h
              · simp at h
              · rename_i x cs'
                exact .inl (read_of_char (.escape ((escape_iff _ _).2 rfl)) (ih _ _ _ _ _ _ (esc _ _ rfl) h) true (by simp))
            · rename_i hc'
              exact .inl (read_of_char (.plain hc' hc) (ih _ _ _ _ _ _ hcs h) true (by simpa using hd))
      | rangeEnd a =>
        simp only [parseCharset_rangeEnd] at h
        split at h
        · rename_i hc
          subst hc
          split at h
          · simp at h
          · rename_i x cs'
            obtain ⟨body, items, h1, rfl, h2⟩ := ih _ _ _ _ _ _ (esc _ _ rfl) h
            exact ⟨_, _, body, items, .escape ((escape_iff _ _).2 rfl), h1, rfl, h2⟩
        · rename_i hc
          obtain ⟨body, items, h1, rfl, h2⟩ := ih _ _ _ _ _ _ hcs h
          exact ⟨_, _, body, items, .plain hc, h1, rfl, h2⟩

theorem parse_start (negate : Bool) (s : RangeSet) (text : List Nat) (h : text.head? ≠ some '^'.toNat) :
    parseCharset .start negate s text = parseCharset .rangeStart negate s text := by
  cases text with
  | nil => rfl
  | cons c cs =>
    have hc : c ≠ '^'.toNat := fun h' => h (by rw [h']; rfl)
    rw [parseCharset_start, if_neg hc]

theorem parse_start_negative (negate : Bool) (s : RangeSet) (text : List Nat) :
    parseCharset .start negate s ('^'.toNat :: text) = parseCharset .rangeStart true s text := by
  rw [parseCharset_start, if_pos rfl]

/-- The parser accepts exactly the bracket expressions, and adds the ranges that are listed. -/
theorem parseCharset_iff (text rest : List Nat) (r : RangeSet) :
    parseCharset .start false [] text = .ok (r, rest) ↔
      ∃ negated items, Class negated items text rest ∧ r = finish negated (insertAll [] items) := by
  constructor
  · intro h
    by_cases hc : text.head? = some '^'.toNat
    · cases text with
      | nil => simp at hc
      | cons c cs =>
        obtain rfl : c = '^'.toNat := by simpa using hc
        rw [parse_start_negative] at h
        obtain ⟨body, items, h1, rfl, h2⟩ := parse_read _ _ _ _ _ _ _ (Nat.le_refl _) h
        exact ⟨true, items, .negative h1, h2⟩
    · rw [parse_start _ _ _ hc] at h
      obtain ⟨body, items, h1, rfl, h2⟩ := parse_read _ _ _ _ _ _ _ (Nat.le_refl _) h
      refine ⟨false, items, .positive h1 ?_, h2⟩
      intro hb
      cases body with
      | nil => simp at hb
      | cons x body => exact hc hb
  · rintro ⟨negated, items, h, rfl⟩
    cases h with
    | positive h1 h2 =>
      rename_i body
      rw [parse_start]
      · exact (parse_body h1 false [] rest).1 rfl
      · cases body with
        | nil => simp
        | cons x body => exact h2
    | negative h1 =>
      rw [parse_start_negative]
      exact (parse_body h1 true [] rest).1 rfl

theorem insertAll_spec (items : List CharRange) (hv : ∀ r ∈ items, r.hi ≤ lastChar) (s : RangeSet) (hw : s.WF)
    (hs : ∀ c, s.Mem c → c ≤ lastChar) :
    (insertAll s items).WF ∧ (∀ c, (insertAll s items).Mem c → c ≤ lastChar) ∧
      ∀ c, (insertAll s items).Mem c ↔ s.Mem c ∨ ∃ r ∈ items, r.Mem c := by
  induction items generalizing s with
  | nil => exact ⟨hw, hs, fun c => by simp [insertAll]⟩
  | cons r items ih =>
    rw [List.forall_mem_cons] at hv
    have h1 : ∀ c, (RangeSet.insert s r).Mem c → c ≤ lastChar := by
      intro c hc
      rw [RangeSet.mem_insert hw] at hc
      rcases hc with hc | hc
      · have := hc.2; omega
      · exact hs c hc
    obtain ⟨h2, h3, h4⟩ := ih hv.2 _ (RangeSet.wf_insert hw r) h1
    refine ⟨h2, h3, fun c => ?_⟩
    rw [show insertAll s (r :: items) = insertAll (RangeSet.insert s r) items from rfl, h4, RangeSet.mem_insert hw]
    simp only [List.mem_cons, exists_eq_or_imp]
    constructor
    · rintro ((h | h) | h)
      · exact .inr (.inl h)
      · exact .inl h
      · exact .inr (.inr h)
    · rintro (h | h | h)
      · exact .inl (.inr h)
      · exact .inl (.inl h)
      · exact .inr h

theorem valid_of_mem {s : RangeSet} (hw : s.WF) (h : ∀ c, s.Mem c → c ≤ lastChar) : s.Valid := fun r hr =>
  h r.hi ⟨r, hr, hw.nonempty r hr, Nat.le_refl _⟩

theorem finish_spec (negated : Bool) (items : List CharRange) (hv : ∀ r ∈ items, r.hi ≤ lastChar) :
    (finish negated (insertAll [] items)).WF ∧ (finish negated (insertAll [] items)).Valid ∧
      ∀ c, (finish negated (insertAll [] items)).Mem c ↔ Denotes negated items c := by
  obtain ⟨h1, h2, h3⟩ := insertAll_spec items hv [] trivial (fun c h => absurd h RangeSet.mem_nil)
  cases negated with
  | false =>
    refine ⟨h1, valid_of_mem h1 h2, fun c => ?_⟩
    simp only [finish, Denotes, Bool.false_eq_true, if_false]
    rw [h3]
    constructor
    · rintro (h | h)
      · exact absurd h RangeSet.mem_nil
      · exact ⟨h2 c ((h3 c).2 (.inr h)), h⟩
    · rintro ⟨-, h⟩; exact .inr h
  | true =>
    have h4 := RangeSet.mem_complement h1 (valid_of_mem h1 h2)
    have h5 : (RangeSet.complement (insertAll [] items)).WF := RangeSet.wf_gaps h1
    refine ⟨h5, valid_of_mem h5 fun c hc => ((h4 c).1 hc).1, fun c => ?_⟩
    simp only [finish, Denotes, if_true]
    rw [h4, h3]
    constructor
    · rintro ⟨h, h'⟩
      exact ⟨h, fun r hr hc => h' (.inr ⟨r, hr, hc⟩)⟩
    · rintro ⟨h, h'⟩
      refine ⟨h, ?_⟩
      rintro (hc | ⟨r, hr, hc⟩)
      · exact RangeSet.mem_nil hc
      · exact h' r hr hc

theorem unescape_le {c : Nat} (h : c ≤ lastChar) : unescape c ≤ lastChar := by
  unfold unescape
  repeat' split
  all_goals first
    | exact h
    | decide

theorem items_valid {after : Bool} {body : List Nat} {items : List CharRange} (h : ClassBody after body items)
    (hb : ∀ c ∈ body, c ≤ lastChar) : ∀ r ∈ items, r.hi ≤ lastChar := by
  induction h with
  | nil => simp
  | char h1 _ _ ih =>
    simp only [List.forall_mem_append, List.forall_mem_cons] at hb ⊢
    refine ⟨?_, ih hb.2⟩
    cases h1 with
    | plain => exact hb.1 _ (by simp)
    | escape h =>
      rw [escape_iff] at h
      subst h
      exact unescape_le (hb.1 _ (by simp))
  | range h1 _ h3 _ ih =>
    simp only [List.forall_mem_append, List.forall_mem_cons] at hb ⊢
    refine ⟨?_, ih hb.2.2.2⟩
    cases h3 with
    | plain => exact hb.2.2.1 _ (by simp)
    | escape h =>
      rw [escape_iff] at h
      subst h
      exact unescape_le (hb.2.2.1 _ (by simp))

theorem class_valid {negated : Bool} {items : List CharRange} {text rest : List Nat} (h : Class negated items text rest)
    (hb : ∀ c ∈ text, c ≤ lastChar) : ∀ r ∈ items, r.hi ≤ lastChar := by
  cases h with
  | positive h1 _ => exact items_valid h1 fun c hc => hb c (List.mem_append_left _ hc)
  | negative h1 => exact items_valid h1 fun c hc => hb c (List.mem_cons_of_mem _ (List.mem_append_left _ hc))

end RegExp

end Verif
