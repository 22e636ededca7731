import Verif.RegExpPrint

/-! # Expressions that are read back as they are -/

set_option linter.unusedSectionVars false
set_option linter.unusedSimpArgs false

namespace Verif

theorem RangeSet.ext_of_mem {m m' : RangeSet} (h : m.WF) (h' : m'.WF) (he : ∀ c, Mem m c ↔ Mem m' c) : m = m' := by
  induction m generalizing m' with
  | nil =>
    cases m' with
    | nil => rfl
    | cons r m' => exact absurd ((he r.lo).2 ⟨r, by simp, Nat.le_refl _, h'.1⟩) RangeSet.mem_nil
  | cons r m ih =>
    cases m' with
    | nil => exact absurd ((he r.lo).1 ⟨r, by simp, Nat.le_refl _, h.1⟩) RangeSet.mem_nil
    | cons r' m' =>
      have least : ∀ {r : CharRange} {m : RangeSet}, WF (r :: m) → ∀ c, Mem (r :: m) c → r.lo ≤ c := by
        rintro r m h c ⟨s, hs, h1, h2⟩
        rcases List.mem_cons.1 hs with rfl | hs
        · exact h1
        · have := h.2.1 s hs
          have := h.1
          omega
      have notNext : ∀ {r : CharRange} {m : RangeSet}, WF (r :: m) → ¬ Mem (r :: m) (r.hi + 1) := by
        rintro r m h ⟨s, hs, h1, h2⟩
        rcases List.mem_cons.1 hs with rfl | hs
        · omega
        · have := h.2.1 s hs
          omega
      have hlo : r.lo = r'.lo := by
        have h1 := least h' r.lo ((he r.lo).1 ⟨r, by simp, Nat.le_refl _, h.1⟩)
        have h2 := least h r'.lo ((he r'.lo).2 ⟨r', by simp, Nat.le_refl _, h'.1⟩)
        omega
      have hhi : r.hi = r'.hi := by
        have h0 := h.1
        have h0' := h'.1
        rcases Nat.lt_trichotomy r.hi r'.hi with hlt | heq | hlt
        · exact absurd ((he (r.hi + 1)).2 ⟨r', by simp, by omega, by omega⟩) (notNext h)
        · exact heq
        · exact absurd ((he (r'.hi + 1)).1 ⟨r, by simp, by omega, by omega⟩) (notNext h')
      have hr : r = r' := by
        cases r; cases r'; simp only at hlo hhi; rw [hlo, hhi]
      subst hr
      congr 1
      refine ih h.2.2 h'.2.2 fun c => ?_
      have tail : ∀ {m m' : RangeSet}, WF (r :: m) → (∀ c, Mem (r :: m) c ↔ Mem (r :: m') c) → Mem m c → Mem m' c := by
        rintro m m' h he ⟨s, hs, h1, h2⟩
        obtain ⟨s', hs', h3, h4⟩ := (he c).1 ⟨s, List.mem_cons_of_mem _ hs, h1, h2⟩
        rcases List.mem_cons.1 hs' with rfl | hs'
        · have := h.2.1 s hs
          omega
        · exact ⟨s', hs', h3, h4⟩
      exact ⟨tail h he, tail h' fun c => (he c).symm⟩

namespace RegExp

/-- The expressions that are read back as they are. Beyond `Printable`: sequences are not nested, have no item that the parser takes
for empty, and do not have one item; unions have at least two items. -/
def Canonical : RegExp → Prop
  | .any => False
  | .set s => s ≠ []
  | .seq es => Items es ∧ es.length ≠ 1
  | .rep e min max => e.Canonical ∧ (min = 0 ∧ max = 1 ∨ min = 0 ∧ max = u32Max ∨ min = 1 ∧ max = u32Max)
  | .union es => All es ∧ 2 ≤ es.length
where
  /-- The items of a sequence. -/
  Items : List RegExp → Prop
    | [] => True
    | e :: es => e.Canonical ∧ (∀ l, e ≠ .seq l) ∧ e.isEmpty = false ∧ Items es
  /-- All the expressions are canonical. -/
  All : List RegExp → Prop
    | [] => True
    | e :: es => e.Canonical ∧ All es

mutual

theorem simplified_canonical : ∀ e : RegExp, e.Canonical → e.simplified = e
  | .any, h => h.elim
  | .set _, _ => rfl
  | .seq es, h => by simp only [simplified, simplified_items es h.1]
  | .rep e _ _, h => by simp only [simplified, simplified_canonical e h.1]
  | .union [], h => absurd h.2 (by simp)
  | .union [_], h => absurd h.2 (by simp)
  | .union (e :: e' :: es), h => by simp only [simplified, simplified_all (e :: e' :: es) h.1]

theorem simplified_items : ∀ es : List RegExp, Canonical.Items es → simplified.filterSimplified es = es
  | [], _ => rfl
  | e :: es, h => by
    simp only [simplified.filterSimplified, h.2.2.1, Bool.false_eq_true, if_false, simplified_canonical e h.1,
      simplified_items es h.2.2.2]

theorem simplified_all : ∀ es : List RegExp, Canonical.All es → simplified.mapSimplified es = es
  | [], _ => rfl
  | e :: es, h => by simp only [simplified.mapSimplified, simplified_canonical e h.1, simplified_all es h.2]

end

/-- The text is read as an alternative. -/
def ReadsAlt (text : List Nat) (e : RegExp) : Prop := ∀ os st, Steps text ((empty :: os) :: st) ((e :: os) :: st)

/-- The text is read as an item. -/
def ReadsPush (text : List Nat) (e : RegExp) : Prop := ∀ x os st, Steps text ((x :: os) :: st) ((x.push e :: os) :: st)

/-- The text is read as a group. -/
def ReadsAs (text : List Nat) (e : RegExp) : Prop := ∃ os' : Options, os'.close = e ∧ ∀ st, Steps text ([empty] :: st) (os' :: st)

theorem ReadsPush.alt {text : List Nat} {e : RegExp} (h : ReadsPush text e) : ReadsAlt text e := fun os st => h empty os st

theorem ReadsAlt.group {text : List Nat} {e : RegExp} (hc : e.Canonical) (h : ReadsAlt text e) : ReadsAs text e :=
  ⟨[e], by simp only [Options.close, List.reverse_singleton, simplified]; exact simplified_canonical e hc, fun st => h [] st⟩

theorem ReadsAs.push {text : List Nat} {e : RegExp} (h : ReadsAs text e) : ReadsPush (['('.toNat] ++ text ++ [')'.toNat]) e := by
  obtain ⟨os', rfl, h⟩ := h
  exact fun x os st => ((steps_open _).trans (h _)).trans (steps_close os' x os st)

/-- Pushing the items of a sequence. -/
theorem push_items {es : List RegExp} (h : Canonical.Items es) (hl : es.length ≠ 1) : es.foldl push empty = .seq es := by
  have more : ∀ (es pre : List RegExp), pre ≠ [] → es.foldl push (.seq pre) = .seq (pre ++ es) := by
    intro es
    induction es with
    | nil => intro pre _; simp
    | cons e es ih =>
      intro pre hpre
      obtain ⟨y, pre, rfl⟩ := List.exists_cons_of_ne_nil hpre
      rw [List.foldl_cons, show (RegExp.seq (y :: pre)).push e = .seq (y :: pre ++ [e]) from rfl, ih _ (by simp)]
      simp
  match es, h, hl with
  | [], _, _ => rfl
  | [_], _, hl => exact absurd rfl hl
  | e :: e' :: es, h, _ =>
    have h2 : e.push e' = .seq [e, e'] := by
      obtain ⟨hc, hs, -, -⟩ := h
      match e, hc, hs with
      | .any, hc, _ => exact hc.elim
      | .set _, _, _ => rfl
      | .rep .., _, _ => rfl
      | .seq l, _, hs => exact absurd rfl (hs l)
      | .union [], hc, _ => exact absurd hc.2 (by simp)
      | .union (_ :: _), _, _ => rfl
    rw [List.foldl_cons, List.foldl_cons, show empty.push e = e from rfl, h2, more es _ (by simp)]
    rfl

mutual

theorem reads_canonical : ∀ e : RegExp, e.WF → e.Canonical →
    ReadsAlt (parenthesize e e.display) e ∧ ((∀ l, e ≠ .seq l) → ReadsPush (parenthesize e e.display) e) ∧ ReadsAs e.display e
  | .any, _, hc => hc.elim
  | .set s, hw, hc => by
    have h : ReadsPush (fmtSet s) (.set s) := by
      obtain ⟨s', h1, h2, -, h4⟩ := steps_set hw.1 hw.2 hc
      obtain rfl := RangeSet.ext_of_mem h1 hw.1 h2
      exact h4
    exact ⟨h.alt, fun _ => h, h.alt.group hc⟩
  | .seq es, hw, hc => by
    have h : ReadsAlt (display.displaySubs es) (.seq es) := by
      intro os st
      have := reads_items es hw hc.1 empty os st
      rwa [push_items hc.1 hc.2] at this
    have hd : (RegExp.seq es).display = display.displaySubs es := by
      match es, hc.2 with
      | [], _ => simp only [display]
      | [_], hl => exact absurd rfl hl
      | _ :: _ :: _, _ => simp only [display]
    have hp : parenthesize (RegExp.seq es) (RegExp.seq es).display = display.displaySubs es := by
      rw [parenthesize, if_pos (by rfl), hd]
    rw [hp, hd]
    exact ⟨h, fun hs => absurd rfl (hs es), h.group hc⟩
  | .rep e min max, hw, hc => by
    have hd : (RegExp.rep e min max).display = parenthesize e e.display ++ fmtBounds min max := by simp only [display]
    have h : ReadsAlt (RegExp.rep e min max).display (.rep e min max) := by
      rw [hd]
      exact fun os st => ((reads_canonical e hw.1 hc.1).1 os st).trans (steps_postfix hc.2 e os st)
    have hp := (h.group hc).push
    rw [show parenthesize (RegExp.rep e min max) (RegExp.rep e min max).display =
      ['('.toNat] ++ (RegExp.rep e min max).display ++ [')'.toNat] from by rw [parenthesize, if_neg (by simp [isSimple])]]
    exact ⟨hp.alt, fun _ => hp, h.group hc⟩
  | .union [], _, hc => absurd hc.2 (by simp)
  | .union (e :: es), hw, hc => by
    have hd : (RegExp.union (e :: es)).display = parenthesize e e.display ++ display.displayUnion false es := by
      simp only [display, display.displayUnion, if_true, List.nil_append]
    have h : ReadsAs (RegExp.union (e :: es)).display (.union (e :: es)) := by
      refine ⟨es.reverse ++ [e], ?_, fun st => ?_⟩
      · simp only [Options.close, List.reverse_append, List.reverse_singleton, List.reverse_reverse, List.singleton_append]
        exact simplified_canonical _ hc
      · rw [hd]
        exact ((reads_canonical e hw.1 hc.1.1).1 [] st).trans (reads_alternatives es hw.2 hc.1.2 [e] st)
    have hp := h.push
    rw [show parenthesize (RegExp.union (e :: es)) (RegExp.union (e :: es)).display =
      ['('.toNat] ++ (RegExp.union (e :: es)).display ++ [')'.toNat] from by rw [parenthesize, if_neg (by simp [isSimple])]]
    exact ⟨hp.alt, fun _ => hp, h⟩

theorem reads_items : ∀ es : List RegExp, WF.WFs es → Canonical.Items es →
    ∀ x os st, Steps (display.displaySubs es) ((x :: os) :: st) ((es.foldl push x :: os) :: st)
  | [], _, _ => fun _ _ _ => .nil _
  | e :: es, hw, hc => fun x os st =>
    ((reads_canonical e hw.1 hc.1).2.1 hc.2.1 x os st).trans (reads_items es hw.2 hc.2.2.2 (x.push e) os st)

theorem reads_alternatives : ∀ es : List RegExp, WF.WFs es → Canonical.All es →
    ∀ os st, Steps (display.displayUnion false es) (os :: st) ((es.reverse ++ os) :: st)
  | [], _, _ => fun _ _ => .nil _
  | e :: es, hw, hc => fun os st => by
    have hd : display.displayUnion false (e :: es) =
        ['|'.toNat] ++ parenthesize e e.display ++ display.displayUnion false es := by
      simp only [display.displayUnion, Bool.false_eq_true, if_false]
    rw [hd]
    have := ((steps_or os st).trans ((reads_canonical e hw.1 hc.1).1 os st)).trans (reads_alternatives es hw.2 hc.2 (e :: os) st)
    simpa using this

end

/-- A canonical expression is read back from its text. -/
theorem parse_display_canonical {e : RegExp} (hw : e.WF) (hc : e.Canonical) : parse e.display = .ok e := by
  obtain ⟨-, -, os', h1, h2⟩ := reads_canonical e hw hc
  rw [parse_of_steps (h2 []), h1]

/-! ## Characters -/

theorem charNumber_numberChar {n : Nat} (h : n ≤ lastChar) : charNumber (numberChar n) = n := by
  have hv : (codePoint n).isValidChar := by
    unfold codePoint Nat.isValidChar
    simp only [lastChar] at h
    split <;> omega
  have ht : (numberChar n).toNat = codePoint n := by
    unfold numberChar
    rw [Char.ofNat, dif_pos hv]
    rfl
  unfold charNumber
  rw [ht]
  unfold codePoint
  split
  · rfl
  · rw [if_neg (by omega)]
    omega

theorem fmtChar_valid {c : Nat} (h : c ≤ lastChar) : ∀ d ∈ fmtChar c, d ≤ lastChar := by
  unfold fmtChar
  intro d hd
  have hl : lastChar = 0x10f7ff := rfl
  repeat' split at hd
  all_goals
    simp at hd
    omega

theorem fmtRange_valid {r : CharRange} (hl : r.lo ≤ lastChar) (hh : r.hi ≤ lastChar) : ∀ d ∈ fmtRange r, d ≤ lastChar := by
  unfold fmtRange
  intro d hd
  split at hd
  · exact fmtChar_valid hl d hd
  · simp only [List.mem_append] at hd
    rcases hd with (hd | hd) | hd
    · exact fmtChar_valid hl d hd
    · split at hd
      · simp at hd; subst hd; decide
      · simp at hd
    · exact fmtChar_valid hh d hd

theorem fmtRanges_valid {s : RangeSet} (hw : s.WF) (hv : s.Valid) : ∀ d ∈ s.flatMap fmtRange, d ≤ lastChar := by
  intro d hd
  obtain ⟨r, hr, hd⟩ := List.mem_flatMap.1 hd
  have h1 := hw.nonempty r hr
  have h2 := hv r hr
  exact fmtRange_valid (by omega) h2 d hd

theorem fmtSet_valid {s : RangeSet} (hw : s.WF ∧ s.Valid) : ∀ d ∈ fmtSet s, d ≤ lastChar := by
  have hg : s.gaps.Valid := valid_of_mem (RangeSet.wf_gaps hw.1) fun c hc => ((RangeSet.mem_gaps hw.1 hw.2 c).1 hc).1
  have main : ∀ n : Nat, ∀ d ∈ ['['.toNat] ++ (if charCount / 2 < n then ['^'.toNat] ++ s.gaps.flatMap fmtRange else s.flatMap fmtRange) ++
      [']'.toNat], d ≤ lastChar := by
    intro n d hd
    simp only [List.mem_append, List.mem_singleton] at hd
    rcases hd with (rfl | hd) | rfl
    · decide
    · split at hd
      · simp only [List.mem_append, List.mem_singleton] at hd
        rcases hd with rfl | hd
        · decide
        · exact fmtRanges_valid (RangeSet.wf_gaps hw.1) hg d hd
      · exact fmtRanges_valid hw.1 hw.2 d hd
    · decide
  unfold fmtSet
  split
  · rename_i r s' _
    have h1 := hw.1.1
    have h2 := hw.2 r (by simp)
    exact fmtChar_valid (by omega)
  · exact main _

theorem fmtNat_valid (n : Nat) : ∀ d ∈ fmtNat n, d ≤ lastChar := by
  intro d hd
  obtain ⟨c, hc, rfl⟩ := List.mem_map.1 hd
  have : c.isDigit = true := by
    have h : (toString n).toList = Nat.toDigits 10 n := by simp [toString, Nat.repr]
    rw [h] at hc
    exact Nat.isDigit_of_mem_toDigits (by decide) (by decide) hc
  simp only [Char.isDigit, Bool.and_eq_true, decide_eq_true_eq] at this
  have h2 : c.toNat ≤ 57 := this.2
  simp only [lastChar]
  omega

theorem fmtBounds_valid (min max : Nat) : ∀ d ∈ fmtBounds min max, d ≤ lastChar := by
  have hs : ∀ c ∈ "?*+{},".toList, c.toNat ≤ lastChar := by decide
  unfold fmtBounds
  intro d hd
  repeat' split at hd
  all_goals
    simp only [List.mem_append, List.mem_cons, List.not_mem_nil, or_false] at hd
    try casesm* _ ∨ _
  all_goals first
    | exact fmtNat_valid _ d (by assumption)
    | (subst_vars; decide)

theorem parenthesize_valid {e : RegExp} {text : List Nat} (h : ∀ c ∈ text, c ≤ lastChar) : ∀ c ∈ parenthesize e text, c ≤ lastChar := by
  unfold parenthesize
  split
  · exact h
  · intro c hc
    simp only [List.mem_append, List.mem_singleton] at hc
    rcases hc with (rfl | hc) | rfl
    · decide
    · exact h c hc
    · decide

mutual

/-- The text of an expression is made of characters. -/
theorem display_valid : ∀ e : RegExp, e.WF → ∀ c ∈ e.display, c ≤ lastChar
  | .any, _ => by simp [display, lastChar]
  | .set s, hw => by simp only [display]; exact fmtSet_valid hw
  | .seq [], _ => by simp [display, display.displaySubs]
  | .seq [e], hw => by simp only [display]; exact display_valid e hw.1
  | .seq (e :: e' :: es), hw => by simp only [display]; exact displaySubs_valid (e :: e' :: es) hw
  | .rep e min max, hw => by
    simp only [display, List.mem_append]
    rintro c (h | h)
    · exact parenthesize_valid (display_valid e hw.1) c h
    · exact fmtBounds_valid min max c h
  | .union es, hw => by simp only [display]; exact displayUnion_valid true es hw

theorem displaySubs_valid : ∀ es : List RegExp, WF.WFs es → ∀ c ∈ display.displaySubs es, c ≤ lastChar
  | [], _ => by simp [display.displaySubs]
  | e :: es, hw => by
    simp only [display.displaySubs, List.mem_append]
    rintro c (h | h)
    · exact parenthesize_valid (display_valid e hw.1) c h
    · exact displaySubs_valid es hw.2 c h

theorem displayUnion_valid (first : Bool) : ∀ es : List RegExp, WF.WFs es → ∀ c ∈ display.displayUnion first es, c ≤ lastChar
  | [], _ => by simp [display.displayUnion]
  | e :: es, hw => by
    simp only [display.displayUnion, List.mem_append]
    rintro c ((h | h) | h)
    · cases first <;> simp at h
      subst h; decide
    · exact parenthesize_valid (display_valid e hw.1) c h
    · exact displayUnion_valid false es hw.2 c h

end

/-- The text of an expression, as a string, has its characters. -/
theorem display_chars {e : RegExp} (hw : e.WF) : (String.ofList (e.display.map numberChar)).toList.map charNumber = e.display := by
  rw [String.toList_ofList, List.map_map]
  refine (List.map_congr_left fun c hc => ?_).trans (List.map_id _)
  exact charNumber_numberChar (display_valid e hw c hc)

end RegExp

end Verif
