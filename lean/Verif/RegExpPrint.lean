import Verif.RegExpCharset
import Verif.RegExpSingleton
import Verif.RegExpGraph

/-! # Parsing what is printed -/

set_option linter.unusedSectionVars false
set_option linter.unusedSimpArgs false

namespace Verif

namespace RegExp

/-- The expressions whose text is read back: no `Any`, no empty set or union, no repetition written with braces, and no
sequence of one union or repetition. -/
def Printable : RegExp → Prop
  | .any => False
  | .set s => s ≠ []
  | .seq es => AllPrintable es ∧ ∀ e, es = [e] → e.isSimple = true
  | .rep e min max => e.Printable ∧ (min = 0 ∧ max = 1 ∨ min = 0 ∧ max = u32Max ∨ min = 1 ∧ max = u32Max)
  | .union es => AllPrintable es ∧ es ≠ []
where
  /-- All the expressions are printable. -/
  AllPrintable : List RegExp → Prop
    | [] => True
    | e :: es => e.Printable ∧ AllPrintable es

/-- No empty set or union, no reversed bounds. -/
def Good : RegExp → Prop
  | .any => True
  | .set s => s ≠ []
  | .seq es => AllGood es
  | .rep e min max => e.Good ∧ min ≤ max
  | .union es => AllGood es ∧ es ≠ []
where
  /-- All the expressions are good. -/
  AllGood : List RegExp → Prop
    | [] => True
    | e :: es => e.Good ∧ AllGood es

theorem allGood_append {es es' : List RegExp} : Good.AllGood (es ++ es') ↔ Good.AllGood es ∧ Good.AllGood es' := by
  induction es with
  | nil => simp [Good.AllGood]
  | cons e es ih => simp only [List.cons_append, Good.AllGood, ih, and_assoc]

theorem allGood_reverse {es : List RegExp} (h : Good.AllGood es) : Good.AllGood es.reverse := by
  induction es with
  | nil => exact h
  | cons e es ih =>
    rw [List.reverse_cons, allGood_append]
    exact ⟨ih h.2, h.1, trivial⟩

theorem times_eps {P : Lang} (h : ∀ w, P w ↔ w = []) (n : Nat) (w : List Nat) : Times P n w ↔ w = [] := by
  induction n generalizing w with
  | zero => exact Iff.rfl
  | succ n ih =>
    simp only [Times, h, ih]
    constructor
    · rintro ⟨_, _, rfl, rfl, rfl⟩; rfl
    · rintro rfl; exact ⟨[], [], rfl, rfl, rfl⟩

mutual

theorem matches_of_isEmpty : ∀ e : RegExp, e.Good → e.isEmpty = true → ∀ w, e.Matches w ↔ w = []
  | .any, _, h => by simp [isEmpty] at h
  | .set s, hg, h => by
    simp only [isEmpty, List.isEmpty_iff] at h
    exact absurd h hg
  | .seq es, hg, h => by
    simp only [isEmpty] at h
    exact (matches_of_allEmpty es hg h).1
  | .rep e min max, hg, h => by
    intro w
    simp only [Matches]
    simp only [isEmpty, Bool.or_eq_true, Bool.and_eq_true, beq_iff_eq] at h
    rcases h with h | ⟨rfl, rfl⟩
    · simp only [times_eps (matches_of_isEmpty e hg.1 h)]
      exact ⟨fun ⟨_, _, _, h⟩ => h, fun h => ⟨min, Nat.le_refl _, .inl hg.2, h⟩⟩
    · constructor
      · rintro ⟨n, -, h1 | h1, h2⟩
        · obtain rfl : n = 0 := by omega
          exact h2
        · simp [u32Max] at h1
      · rintro rfl; exact ⟨0, Nat.le_refl _, .inl (Nat.le_refl _), rfl⟩
  | .union es, hg, h => by
    simp only [isEmpty] at h
    exact (matches_of_allEmpty es hg.1 h).2 hg.2

theorem matches_of_allEmpty : ∀ es : List RegExp, Good.AllGood es → isEmpty.allEmpty es = true →
    (∀ w, Matches.MatchesSeq es w ↔ w = []) ∧ (es ≠ [] → ∀ w, Matches.MatchesOne es w ↔ w = [])
  | [], _, _ => ⟨fun _ => Iff.rfl, fun h => absurd rfl h⟩
  | e :: es, hg, h => by
    simp only [isEmpty.allEmpty, Bool.and_eq_true] at h
    have h1 := matches_of_isEmpty e hg.1 h.1
    obtain ⟨h2, h3⟩ := matches_of_allEmpty es hg.2 h.2
    refine ⟨fun w => ?_, fun _ w => ?_⟩
    · simp only [Matches.MatchesSeq, h1, h2]
      constructor
      · rintro ⟨_, _, rfl, rfl, rfl⟩; rfl
      · rintro rfl; exact ⟨[], [], rfl, rfl, rfl⟩
    · simp only [Matches.MatchesOne, h1]
      cases es with
      | nil => simp [Matches.MatchesOne]
      | cons => rw [h3 (by simp)]; simp

end

mutual

theorem matches_simplified : ∀ e : RegExp, e.Good → e.simplified.Good ∧ ∀ w, e.simplified.Matches w ↔ e.Matches w
  | .any, _ => ⟨trivial, fun _ => Iff.rfl⟩
  | .set s, hg => ⟨hg, fun _ => Iff.rfl⟩
  | .seq es, hg => by
    simp only [simplified, Matches, Good]
    exact matches_filterSimplified es hg
  | .rep e min max, hg => by
    obtain ⟨h1, h2⟩ := matches_simplified e hg.1
    have : e.simplified.Matches = e.Matches := funext fun w => propext (h2 w)
    refine ⟨⟨h1, hg.2⟩, fun w => ?_⟩
    simp only [simplified, Matches, this]
  | .union [], hg => absurd rfl hg.2
  | .union [e], hg => by
    obtain ⟨h1, h2⟩ := matches_simplified e hg.1.1
    simp only [simplified]
    exact ⟨h1, fun w => by rw [h2]; simp [Matches, Matches.MatchesOne]⟩
  | .union (e :: e' :: es), hg => by
    obtain ⟨h1, h2⟩ := matches_mapSimplified (e :: e' :: es) hg.1
    simp only [simplified]
    exact ⟨⟨h1, by simp [simplified.mapSimplified]⟩, h2⟩

theorem matches_filterSimplified : ∀ es : List RegExp, Good.AllGood es →
    Good.AllGood (simplified.filterSimplified es) ∧
      ∀ w, Matches.MatchesSeq (simplified.filterSimplified es) w ↔ Matches.MatchesSeq es w
  | [], _ => ⟨trivial, fun _ => Iff.rfl⟩
  | e :: es, hg => by
    obtain ⟨h1, h2⟩ := matches_simplified e hg.1
    obtain ⟨h3, h4⟩ := matches_filterSimplified es hg.2
    simp only [simplified.filterSimplified]
    split
    · rename_i he
      refine ⟨h3, fun w => ?_⟩
      rw [h4]
      simp only [Matches.MatchesSeq, matches_of_isEmpty e hg.1 he]
      constructor
      · intro h; exact ⟨[], w, rfl, rfl, h⟩
      · rintro ⟨_, v, rfl, rfl, h⟩; exact h
    · refine ⟨⟨h1, h3⟩, fun w => ?_⟩
      simp only [Matches.MatchesSeq, h2, h4]

theorem matches_mapSimplified : ∀ es : List RegExp, Good.AllGood es →
    Good.AllGood (simplified.mapSimplified es) ∧
      ∀ w, Matches.MatchesOne (simplified.mapSimplified es) w ↔ Matches.MatchesOne es w
  | [], _ => ⟨trivial, fun _ => Iff.rfl⟩
  | e :: es, hg => by
    obtain ⟨h1, h2⟩ := matches_simplified e hg.1
    obtain ⟨h3, h4⟩ := matches_mapSimplified es hg.2
    simp only [simplified.mapSimplified]
    exact ⟨⟨h1, h3⟩, fun w => by simp only [Matches.MatchesOne, h2, h4]⟩

end

theorem matchesSeq_append (es es' : List RegExp) (w : List Nat) :
    Matches.MatchesSeq (es ++ es') w ↔ ∃ u v, w = u ++ v ∧ Matches.MatchesSeq es u ∧ Matches.MatchesSeq es' v := by
  induction es generalizing w with
  | nil =>
    constructor
    · intro h; exact ⟨[], w, rfl, rfl, h⟩
    · rintro ⟨_, v, rfl, ⟨⟩, h⟩; exact h
  | cons e es ih =>
    simp only [List.cons_append, Matches.MatchesSeq, ih]
    constructor
    · rintro ⟨u, _, rfl, h1, u', v', rfl, h2, h3⟩
      exact ⟨u ++ u', v', by rw [List.append_assoc], ⟨u, u', rfl, h1, h2⟩, h3⟩
    · rintro ⟨_, v', rfl, ⟨u, u', rfl, h1, h2⟩, h3⟩
      exact ⟨u, u' ++ v', by rw [List.append_assoc], h1, u', v', rfl, h2, h3⟩

theorem matchesOne_iff (es : List RegExp) (w : List Nat) : Matches.MatchesOne es w ↔ ∃ e ∈ es, e.Matches w := by
  induction es with
  | nil => simp [Matches.MatchesOne]
  | cons e es ih => simp only [Matches.MatchesOne, ih, List.mem_cons, exists_eq_or_imp]

theorem matches_push {x e : RegExp} (hx : x.Good) (he : e.Good) :
    (x.push e).Good ∧ ∀ w, (x.push e).Matches w ↔ cat x.Matches e.Matches w := by
  have two : ∀ x : RegExp, x.Good → (RegExp.seq [x, e]).Good ∧ ∀ w, (RegExp.seq [x, e]).Matches w ↔ cat x.Matches e.Matches w := by
    refine fun x hx => ⟨⟨hx, he, trivial⟩, fun w => ?_⟩
    simp only [Matches, Matches.MatchesSeq, cat]
    constructor
    · rintro ⟨u, _, rfl, h1, v, _, rfl, h2, rfl⟩; exact ⟨u, v, by simp, h1, h2⟩
    · rintro ⟨u, v, rfl, h1, h2⟩; exact ⟨u, v, rfl, h1, v, [], by simp, h2, rfl⟩
  cases x with
  | any => exact two _ hx
  | set => exact two _ hx
  | rep => exact two _ hx
  | union es =>
    cases es with
    | nil => exact absurd rfl hx.2
    | cons => exact two _ hx
  | seq es =>
    cases es with
    | nil =>
      refine ⟨he, fun w => ?_⟩
      simp only [push, cat, Matches, Matches.MatchesSeq]
      constructor
      · intro h; exact ⟨[], w, rfl, rfl, h⟩
      · rintro ⟨_, v, rfl, rfl, h⟩; exact h
    | cons y es =>
      refine ⟨?_, fun w => ?_⟩
      · simp only [push, Good, allGood_append]
        exact ⟨hx, he, trivial⟩
      · simp only [push, cat, Matches, matchesSeq_append]
        constructor
        · rintro ⟨u, _, rfl, h1, v, _, rfl, h2, rfl⟩; exact ⟨u, v, by simp, h1, h2⟩
        · rintro ⟨u, v, rfl, h1, h2⟩; exact ⟨u, v, rfl, h1, v, [], by simp, h2, rfl⟩

/-- Closing a group. -/
theorem matches_close {os : Options} (hg : Good.AllGood os) (hne : os ≠ []) :
    os.close.Good ∧ ∀ w, os.close.Matches w ↔ Matches.MatchesOne os w := by
  have : (RegExp.union os.reverse).Good := ⟨allGood_reverse hg, by simpa using hne⟩
  obtain ⟨h1, h2⟩ := matches_simplified _ this
  refine ⟨h1, fun w => ?_⟩
  unfold Options.close
  rw [h2, Matches, matchesOne_iff, matchesOne_iff]
  simp

/-! ## Steps of the parser -/

/-- After `text`, the parser goes from one stack to the other. -/
def Steps (text : List Nat) (st st' : List Options) : Prop :=
  ∀ fuel rest, (text ++ rest).length ≤ fuel → ∃ fuel', rest.length ≤ fuel' ∧
    parseLoop fuel st (text ++ rest) = parseLoop fuel' st' rest

theorem Steps.nil (st : List Options) : Steps [] st st := fun fuel _ h => ⟨fuel, h, rfl⟩

theorem Steps.trans {t t' : List Nat} {st st' st'' : List Options} (h : Steps t st st') (h' : Steps t' st' st'') :
    Steps (t ++ t') st st'' := by
  intro fuel rest hf
  rw [List.append_assoc] at hf ⊢
  obtain ⟨fuel', h1, h2⟩ := h fuel (t' ++ rest) hf
  obtain ⟨fuel'', h3, h4⟩ := h' fuel' rest h1
  exact ⟨fuel'', h3, h2.trans h4⟩

theorem Steps.one {c : Nat} {st st' : List Options}
    (h : ∀ fuel rest, parseLoop (fuel + 1) st (c :: rest) = parseLoop fuel st' rest) : Steps [c] st st' := by
  intro fuel rest hf
  cases fuel with
  | zero => simp at hf
  | succ fuel => exact ⟨fuel, by simpa using hf, h fuel rest⟩

theorem steps_open (st : List Options) : Steps ['('.toNat] st ([empty] :: st) :=
  .one fun fuel rest => by rw [parseLoop.eq_def]; simp only [if_true]

theorem steps_close (os : Options) (x : RegExp) (os' : Options) (st : List Options) :
    Steps [')'.toNat] (os :: (x :: os') :: st) ((x.push os.close :: os') :: st) :=
  .one fun fuel rest => by
    rw [parseLoop.eq_def]
    simp only
    rw [if_neg (by decide), if_pos trivial]
    rfl

theorem steps_or (os : Options) (st : List Options) : Steps ['|'.toNat] (os :: st) ((empty :: os) :: st) :=
  .one fun fuel rest => by
    rw [parseLoop.eq_def]
    simp only
    rw [if_neg (by decide), if_neg (by decide), if_pos trivial]

theorem steps_postfix {min max : Nat} (h : min = 0 ∧ max = 1 ∨ min = 0 ∧ max = u32Max ∨ min = 1 ∧ max = u32Max) (x : RegExp)
    (os : Options) (st : List Options) : Steps (fmtBounds min max) ((x :: os) :: st) ((RegExp.rep x min max :: os) :: st) := by
  rcases h with ⟨rfl, rfl⟩ | ⟨rfl, rfl⟩ | ⟨rfl, rfl⟩
  · rw [show fmtBounds 0 1 = ['?'.toNat] from rfl]
    refine .one fun fuel rest => ?_
    rw [parseLoop.eq_def]
    simp only
    rw [if_neg (by decide), if_neg (by decide), if_neg (by decide), if_neg (by decide), if_neg (by decide), if_pos trivial]
    rfl
  · rw [show fmtBounds 0 u32Max = ['*'.toNat] from rfl]
    refine .one fun fuel rest => ?_
    rw [parseLoop.eq_def]
    simp only
    rw [if_neg (by decide), if_neg (by decide), if_neg (by decide), if_neg (by decide), if_neg (by decide),
      if_neg (by decide), if_pos trivial]
    rfl
  · rw [show fmtBounds 1 u32Max = ['+'.toNat] from rfl]
    refine .one fun fuel rest => ?_
    rw [parseLoop.eq_def]
    simp only
    rw [if_neg (by decide), if_neg (by decide), if_neg (by decide), if_neg (by decide), if_neg (by decide),
      if_neg (by decide), if_neg (by decide), if_pos trivial]
    rfl

/-- The characters that have a role in the syntax, except `-`, `^`, `]`, `{` and `}`, that have none outside brackets. -/
def special : List Nat := "()|[\\?*+".toList.map Char.toNat

theorem steps_plain {c : Nat} (h : c ∉ special) (x : RegExp) (os : Options) (st : List Options) :
    Steps [c] ((x :: os) :: st) ((x.push (.set (single c)) :: os) :: st) := by
  refine .one fun fuel rest => ?_
  have h' : ∀ d ∈ special, c ≠ d := fun d hd hc => h (hc ▸ hd)
  rw [parseLoop.eq_def]
  simp only
  rw [if_neg (h' _ (by decide)), if_neg (h' _ (by decide)), if_neg (h' _ (by decide)), if_neg (h' _ (by decide)),
    if_neg (h' _ (by decide)), if_neg (h' _ (by decide)), if_neg (h' _ (by decide)), if_neg (h' _ (by decide))]
  rfl

theorem steps_escape (c : Nat) (x : RegExp) (os : Options) (st : List Options) :
    Steps ['\\'.toNat, c] ((x :: os) :: st) ((x.push (.set (single (unescape c))) :: os) :: st) := by
  intro fuel rest hf
  cases fuel with
  | zero => simp at hf
  | succ fuel =>
    refine ⟨fuel, by simp at hf; omega, ?_⟩
    rw [parseLoop.eq_def]
    simp only [List.cons_append, List.nil_append]
    rw [if_neg (by decide), if_neg (by decide), if_neg (by decide), if_neg (by decide)]
    simp only [if_true]
    rfl

theorem steps_class {text : List Nat} {s : RangeSet} (h : ∀ rest, parseCharset .start false [] (text ++ rest) = .ok (s, rest))
    (x : RegExp) (os : Options) (st : List Options) :
    Steps ('['.toNat :: text) ((x :: os) :: st) ((x.push (.set s) :: os) :: st) := by
  intro fuel rest hf
  cases fuel with
  | zero => simp at hf
  | succ fuel =>
    refine ⟨fuel, by simp at hf; omega, ?_⟩
    rw [parseLoop.eq_def]
    simp only [List.cons_append]
    rw [if_neg (by decide), if_neg (by decide), if_neg (by decide)]
    simp only [if_true, h]
    rfl

/-! ## Texts of characters -/

/-- The characters that are escaped by `fmtChar`, with what follows the backslash. -/
def fmtEscapes : List (Nat × Nat) :=
  ("()[]{}?*+-^|\\".toList.map fun c => (c.toNat, c.toNat)) ++
    [(0, '0'.toNat), (7, 'a'.toNat), (8, 'b'.toNat), (9, 't'.toNat), (10, 'n'.toNat), (11, 'v'.toNat), (12, 'f'.toNat),
      (13, 'r'.toNat), (27, 'e'.toNat)]

theorem fmtChar_cases (c : Nat) :
    (∃ x, fmtChar c = ['\\'.toNat, x] ∧ unescape x = c) ∨ fmtChar c = [c] ∧ c ∉ "()[]{}?*+-^|\\".toList.map Char.toNat := by
  unfold fmtChar
  split
  · rename_i h
    refine .inl ⟨c, rfl, ?_⟩
    have : ∀ c ∈ "()[]{}?*+-^|\\".toList.map Char.toNat, unescape c = c := by decide
    exact this c h
  · rename_i hc
    repeat' split
    all_goals first
      | (rename_i h; subst h; exact .inl ⟨_, rfl, by decide⟩)
      | exact .inr ⟨rfl, hc⟩

theorem steps_char (c : Nat) (x : RegExp) (os : Options) (st : List Options) :
    Steps (fmtChar c) ((x :: os) :: st) ((x.push (.set (single c)) :: os) :: st) := by
  rcases fmtChar_cases c with ⟨y, h1, h2⟩ | ⟨h1, h2⟩
  · rw [h1, ← h2]
    exact steps_escape y x os st
  · rw [h1]
    refine steps_plain (fun h => h2 ?_) x os st
    have : ∀ d ∈ special, d ∈ "()[]{}?*+-^|\\".toList.map Char.toNat := by decide
    exact this c h

theorem written_fmtChar (c : Nat) : Written (fmtChar c) c ∧ WrittenEnd (fmtChar c) c ∧ fmtChar c ≠ ['-'.toNat] ∧
    (fmtChar c).head? ≠ some '^'.toNat ∧ fmtChar c ≠ [] := by
  rcases fmtChar_cases c with ⟨y, h1, h2⟩ | ⟨h1, h2⟩
  · rw [h1]
    have he : Escape y c := (escape_iff y c).2 h2.symm
    exact ⟨.escape he, .escape he, by simp, by simp, by simp⟩
  · rw [h1]
    have h' : ∀ d ∈ "()[]{}?*+-^|\\".toList.map Char.toNat, c ≠ d := fun d hd hc => h2 (hc ▸ hd)
    have h3 : c ≠ '-'.toNat := h' _ (by decide)
    have h4 : c ≠ '^'.toNat := h' _ (by decide)
    exact ⟨.plain (h' _ (by decide)) (h' _ (by decide)), .plain (h' _ (by decide)), by simpa using h3, by simpa using h4, by simp⟩

theorem fmtRanges_body (rs : List CharRange) (hr : ∀ r ∈ rs, r.lo ≤ r.hi) (after : Bool) :
    ∃ items, ClassBody after (rs.flatMap fmtRange) items ∧ (∀ c, (∃ r ∈ items, r.Mem c) ↔ ∃ r ∈ rs, r.Mem c) := by
  induction rs generalizing after with
  | nil => exact ⟨[], .nil _, fun c => by simp⟩
  | cons r rs ih =>
    rw [List.forall_mem_cons] at hr
    obtain ⟨h1, h2, h3, -, -⟩ := written_fmtChar r.lo
    obtain ⟨h1', h2', h3', -, -⟩ := written_fmtChar r.hi
    have hle := hr.1
    have key : ∀ {text : List Nat} {its : List CharRange} {aft : Bool},
        (∀ {rest : List Nat} {items : List CharRange}, ClassBody aft rest items → ClassBody after (text ++ rest) (its ++ items)) →
        (∀ c, (∃ s ∈ its, s.Mem c) ↔ r.Mem c) → fmtRange r = text →
        ∃ items, ClassBody after ((r :: rs).flatMap fmtRange) items ∧ (∀ c, (∃ s ∈ items, s.Mem c) ↔ ∃ s ∈ r :: rs, s.Mem c) := by
      intro text its aft hb hm ht
      obtain ⟨items, h4, h5⟩ := ih hr.2 aft
      refine ⟨its ++ items, ?_, fun c => ?_⟩
      · rw [List.flatMap_cons, ht]
        exact hb h4
      · simp only [List.mem_append, or_and_right, exists_or, List.mem_cons, exists_eq_left, hm, h5]
    have hd : ∀ a b : Prop, a → (after = true → b) → True := fun _ _ _ _ => trivial
    by_cases hone : r.hi + 1 - r.lo = 1
    · refine key (text := fmtChar r.lo) (its := [⟨r.lo, r.lo⟩]) (aft := true) (fun h => .char h1 (fun _ => h3) h) (fun c => ?_) ?_
      · simp only [List.mem_singleton, exists_eq_left, CharRange.Mem]
        omega
      · simp only [fmtRange, if_pos hone]
    · by_cases hdash : codePoint r.lo + 1 < codePoint r.hi
      · refine key (text := fmtChar r.lo ++ ['-'.toNat] ++ fmtChar r.hi) (its := [r]) (aft := false) (fun {rest items} h => ?_) (fun c => ?_) ?_
        · have := ClassBody.range (after := after) h1 (fun _ => h3) h2' h
          simpa using this
        · simp
        · simp only [fmtRange, if_neg hone, if_pos hdash]
      · have htwo : r.hi = r.lo + 1 := by
          unfold codePoint at hdash
          split at hdash <;> split at hdash <;> omega
        refine key (text := fmtChar r.lo ++ fmtChar r.hi) (its := [⟨r.lo, r.lo⟩, ⟨r.hi, r.hi⟩]) (aft := true) (fun {rest items} h => ?_) (fun c => ?_) ?_
        · rw [List.append_assoc]
          exact .char h1 (fun _ => h3) (.char h1' (fun _ => h3') h)
        · simp only [List.mem_cons, List.not_mem_nil, or_false, exists_eq_or_imp, exists_eq_left, CharRange.Mem]
          omega
        · simp only [fmtRange, if_neg hone, if_neg hdash, List.append_nil]

theorem head_fmtRanges (rs : List CharRange) : (rs.flatMap fmtRange).head? ≠ some '^'.toNat := by
  cases rs with
  | nil => simp
  | cons r rs =>
    obtain ⟨-, -, -, h1, h2⟩ := written_fmtChar r.lo
    have hstart : ∃ t, (List.flatMap fmtRange (r :: rs)) = fmtChar r.lo ++ t := by
      rw [List.flatMap_cons]
      unfold fmtRange
      split
      · exact ⟨_, rfl⟩
      · exact ⟨_, by rw [List.append_assoc, List.append_assoc]⟩
    obtain ⟨t, ht⟩ := hstart
    rw [ht, List.head?_append_of_ne_nil _ h2]
    exact h1

theorem items_le {items : List CharRange} {rs : RangeSet} (h : ∀ c, (∃ r ∈ items, r.Mem c) ↔ ∃ r ∈ rs, r.Mem c)
    (hrs : ∀ r ∈ rs, r.hi ≤ lastChar) (c : Nat) (hc : ∃ r ∈ items, r.Mem c) : c ≤ lastChar := by
  obtain ⟨r, hr, -, h2⟩ := (h c).1 hc
  have := hrs r hr
  omega

theorem mem_single (c d : Nat) : (single c).Mem d ↔ d = c := by
  unfold single
  rw [RangeSet.mem_insert (m := []) trivial]
  simp only [CharRange.Mem]
  constructor
  · rintro (h | h)
    · omega
    · exact absurd h RangeSet.mem_nil
  · rintro rfl
    exact .inl ⟨Nat.le_refl _, Nat.le_refl _⟩

theorem insertAll_mem (items : List CharRange) (s : RangeSet) (hw : s.WF) :
    (insertAll s items).WF ∧ ∀ c, (insertAll s items).Mem c ↔ s.Mem c ∨ ∃ r ∈ items, r.Mem c := by
  induction items generalizing s with
  | nil => exact ⟨hw, fun c => by simp [insertAll]⟩
  | cons r items ih =>
    obtain ⟨h2, h4⟩ := ih _ (RangeSet.wf_insert hw r)
    refine ⟨h2, fun c => ?_⟩
    rw [show insertAll s (r :: items) = insertAll (RangeSet.insert s r) items from rfl, h4, RangeSet.mem_insert hw]
    simp only [List.mem_cons, exists_eq_or_imp]
    constructor
    · rintro ((h | h) | h)
      · exact .inr (.inl h)
      · exact .inl h
      · exact .inr (.inr h)
    · rintro (h | h | h)
      · exact .inl (.inr h)
      · exact .inl (.inl h)
      · exact .inr h

/-- The text of a set is read as a set with the same characters. -/
theorem steps_set {s : RangeSet} (hw : s.WF) (hv : s.Valid) (hne : s ≠ []) :
    ∃ s' : RangeSet, s'.WF ∧ (∀ c, s'.Mem c ↔ s.Mem c) ∧ s' ≠ [] ∧
      ∀ x os st, Steps (fmtSet s) ((x :: os) :: st) ((x.push (.set s') :: os) :: st) := by
  have hnonempty : ∀ s' : RangeSet, (∀ c, s'.Mem c ↔ s.Mem c) → s' ≠ [] := by
    rintro s' h rfl
    cases s with
    | nil => exact hne rfl
    | cons r s => exact RangeSet.mem_nil ((h r.lo).2 ⟨r, by simp, Nat.le_refl _, hw.1⟩)
  by_cases hlen : RangeSet.len s = 1
  · obtain ⟨c, rfl⟩ := len_eq_one hw hlen
    have hm : ∀ d, (single c).Mem d ↔ RangeSet.Mem [⟨c, c⟩] d := by
      intro d
      rw [mem_single]
      simp only [RangeSet.Mem, List.mem_singleton, exists_eq_left, CharRange.Mem]
      omega
    refine ⟨single c, RangeSet.wf_insert (m := []) trivial _, hm, hnonempty _ hm, fun x os st => ?_⟩
    have : fmtSet [⟨c, c⟩] = fmtChar c := by
      unfold fmtSet
      rw [hlen]
      rfl
    rw [this]
    exact steps_char c x os st
  · have hfmt : fmtSet s = ['['.toNat] ++ (if charCount / 2 < RangeSet.len s then ['^'.toNat] ++ s.gaps.flatMap fmtRange
        else s.flatMap fmtRange) ++ [']'.toNat] := by
      unfold fmtSet
      split
      · rename_i h; exact absurd h hlen
      · rfl
    by_cases hneg : charCount / 2 < RangeSet.len s
    · obtain ⟨items, h1, h2⟩ := fmtRanges_body s.gaps (RangeSet.wf_gaps hw).nonempty false
      obtain ⟨h3, h4⟩ := insertAll_mem items [] trivial
      have h5 : ∀ c, (insertAll [] items).Mem c ↔ c ≤ lastChar ∧ ¬ s.Mem c := by
        intro c
        rw [h4, h2, ← RangeSet.mem_gaps hw hv]
        constructor
        · rintro (h | h)
          · exact absurd h RangeSet.mem_nil
          · exact h
        · exact .inr
      have hm : ∀ c, (finish true (insertAll [] items)).Mem c ↔ s.Mem c := by
        intro c
        rw [show finish true (insertAll [] items) = (insertAll [] items).complement from rfl,
          RangeSet.mem_complement h3 (valid_of_mem h3 fun c hc => ((h5 c).1 hc).1), h5]
        constructor
        · rintro ⟨h, h'⟩
          exact Classical.byContradiction fun hc => h' ⟨h, hc⟩
        · intro h
          exact ⟨hv.le h, fun h' => h'.2 h⟩
      refine ⟨_, RangeSet.wf_gaps h3, hm, hnonempty _ hm, fun x os st => ?_⟩
      rw [hfmt, if_pos hneg]
      refine steps_class (text := '^'.toNat :: (s.gaps.flatMap fmtRange ++ [']'.toNat])) (fun rest => ?_) x os st
      rw [parseCharset_iff]
      refine ⟨true, items, ?_, rfl⟩
      have := Class.negative (rest := rest) h1
      simpa using this
    · obtain ⟨items, h1, h2⟩ := fmtRanges_body s hw.nonempty false
      obtain ⟨h3, h4⟩ := insertAll_mem items [] trivial
      have hm : ∀ c, (finish false (insertAll [] items)).Mem c ↔ s.Mem c := by
        intro c
        rw [show finish false (insertAll [] items) = insertAll [] items from rfl, h4, h2]
        constructor
        · rintro (h | h)
          · exact absurd h RangeSet.mem_nil
          · exact h
        · exact .inr
      refine ⟨_, h3, hm, hnonempty _ hm, fun x os st => ?_⟩
      rw [hfmt, if_neg hneg]
      refine steps_class (text := s.flatMap fmtRange ++ [']'.toNat]) (fun rest => ?_) x os st
      rw [parseCharset_iff]
      refine ⟨false, items, ?_, rfl⟩
      have := Class.positive (rest := rest) h1 (head_fmtRanges s)
      simpa using this

/-! ## The round trip -/

/-- Read as an item: it is added to what precedes it. -/
def ReadsItem (text : List Nat) (L : Lang) : Prop :=
  ∀ x : RegExp, x.Good → ∃ x' : RegExp, x'.Good ∧ (∀ w, x'.Matches w ↔ cat x.Matches L w) ∧
    ∀ os st, Steps text ((x :: os) :: st) ((x' :: os) :: st)

/-- Read as a group. -/
def ReadsGroup (text : List Nat) (L : Lang) : Prop :=
  ∃ os' : Options, Good.AllGood os' ∧ os' ≠ [] ∧ (∀ w, Matches.MatchesOne os' w ↔ L w) ∧
    ∀ st, Steps text ([empty] :: st) (os' :: st)

theorem ReadsItem.group {text : List Nat} {L : Lang} (h : ReadsItem text L) : ReadsGroup text L := by
  obtain ⟨x', h1, h2, h3⟩ := h empty trivial
  refine ⟨[x'], ⟨h1, trivial⟩, by simp, fun w => ?_, fun st => h3 [] st⟩
  simp only [Matches.MatchesOne, or_false, h2, cat, empty, Matches, Matches.MatchesSeq]
  constructor
  · rintro ⟨_, v, rfl, rfl, h⟩; exact h
  · intro h; exact ⟨[], w, rfl, rfl, h⟩

theorem ReadsGroup.item {text : List Nat} {L : Lang} (h : ReadsGroup text L) : ReadsItem (['('.toNat] ++ text ++ [')'.toNat]) L := by
  obtain ⟨os', h1, h2, h3, h4⟩ := h
  obtain ⟨h5, h6⟩ := matches_close h1 h2
  intro x hx
  obtain ⟨h7, h8⟩ := matches_push hx h5
  refine ⟨_, h7, fun w => ?_, fun os st => ?_⟩
  · have : os'.close.Matches = L := funext fun w => propext ((h6 w).trans (h3 w))
    rw [h8, this]
  · exact ((steps_open _).trans (h4 _)).trans (steps_close os' x os st)

theorem cat_assoc (A B C : Lang) (w : List Nat) : cat (cat A B) C w ↔ cat A (cat B C) w := by
  constructor
  · rintro ⟨_, c, rfl, ⟨a, b, rfl, h1, h2⟩, h3⟩
    exact ⟨a, b ++ c, by rw [List.append_assoc], h1, b, c, rfl, h2, h3⟩
  · rintro ⟨a, _, rfl, h1, b, c, rfl, h2, h3⟩
    exact ⟨a ++ b, c, by rw [List.append_assoc], ⟨a, b, rfl, h1, h2⟩, h3⟩

mutual

theorem reads : ∀ e : RegExp, e.WF → e.Printable → ReadsItem (parenthesize e e.display) e.Matches ∧ ReadsGroup e.display e.Matches
  | .any, _, hp => hp.elim
  | .set s, hw, hp => by
    have h : ReadsItem (fmtSet s) (RegExp.set s).Matches := by
      obtain ⟨s', -, h1, h2, h3⟩ := steps_set hw.1 hw.2 hp
      intro x hx
      obtain ⟨h4, h5⟩ := matches_push (e := .set s') hx h2
      refine ⟨_, h4, fun w => ?_, h3 x⟩
      rw [h5]
      simp only [cat, Matches, h1]
    exact ⟨h, h.group⟩
  | .seq [], _, hp => by
    have h : ReadsItem [] (RegExp.seq []).Matches := by
      intro x hx
      refine ⟨x, hx, fun w => ?_, fun os st => .nil _⟩
      simp only [cat, Matches, Matches.MatchesSeq]
      constructor
      · intro h; exact ⟨w, [], by simp, h, rfl⟩
      · rintro ⟨u, _, rfl, h, rfl⟩; rwa [List.append_nil]
    exact ⟨h, h.group⟩
  | .seq [e], hw, hp => by
    obtain ⟨h1, h2⟩ := reads e hw.1 hp.1.1
    have hs := hp.2 e rfl
    have hL : (RegExp.seq [e]).Matches = e.Matches := by
      funext w
      simp only [Matches, Matches.MatchesSeq]
      refine propext ⟨?_, fun h => ⟨w, [], by simp, h, rfl⟩⟩
      rintro ⟨u, _, rfl, h, rfl⟩; rwa [List.append_nil]
    have hd : (RegExp.seq [e]).display = e.display := by simp only [display]
    have hpe : parenthesize (RegExp.seq [e]) (RegExp.seq [e]).display = parenthesize e e.display := by
      rw [hd, parenthesize, parenthesize, if_pos hs, if_pos (by rfl)]
    rw [hpe, hd, hL]
    exact ⟨h1, h2⟩
  | .seq (e :: e' :: es), hw, hp => by
    have h := reads_subs (e :: e' :: es) hw hp.1
    have hd : (RegExp.seq (e :: e' :: es)).display = display.displaySubs (e :: e' :: es) := by simp only [display]
    have hpe : parenthesize (RegExp.seq (e :: e' :: es)) (RegExp.seq (e :: e' :: es)).display =
        (RegExp.seq (e :: e' :: es)).display := by
      rw [parenthesize, if_pos (by rfl)]
    rw [hpe, hd]
    have hL : (RegExp.seq (e :: e' :: es)).Matches = Matches.MatchesSeq (e :: e' :: es) := by
      funext w; simp only [Matches]
    rw [hL]
    exact ⟨h, h.group⟩
  | .rep e min max, hw, hp => by
    obtain ⟨h1, -⟩ := reads e hw.1 hp.1
    have hd : (RegExp.rep e min max).display = parenthesize e e.display ++ fmtBounds min max := by simp only [display]
    have hle : min ≤ max := by
      rcases hp.2 with ⟨rfl, rfl⟩ | ⟨rfl, rfl⟩ | ⟨rfl, rfl⟩ <;> decide
    have h : ReadsGroup (RegExp.rep e min max).display (RegExp.rep e min max).Matches := by
      obtain ⟨x', h2, h3, h4⟩ := h1 empty trivial
      have hL : x'.Matches = e.Matches := by
        funext w
        refine propext ((h3 w).trans ?_)
        simp only [cat, empty, Matches, Matches.MatchesSeq]
        constructor
        · rintro ⟨_, v, rfl, rfl, h⟩; exact h
        · intro h; exact ⟨[], w, rfl, rfl, h⟩
      refine ⟨[.rep x' min max], ⟨⟨h2, hle⟩, trivial⟩, by simp, fun w => ?_, fun st => ?_⟩
      · simp only [Matches.MatchesOne, or_false, Matches, hL]
      · rw [hd]
        exact (h4 [] st).trans (steps_postfix hp.2 x' [] st)
    refine ⟨?_, h⟩
    rw [parenthesize, if_neg (by simp [isSimple])]
    exact h.item
  | .union [], _, hp => absurd rfl hp.2
  | .union (e :: es), hw, hp => by
    obtain ⟨h1, -⟩ := reads e hw.1 hp.1.1
    obtain ⟨os'', h2, h3, h4⟩ := reads_union es hw.2 hp.1.2
    have hd : (RegExp.union (e :: es)).display = parenthesize e e.display ++ display.displayUnion false es := by
      simp only [display, display.displayUnion, if_true, List.nil_append]
    have h : ReadsGroup (RegExp.union (e :: es)).display (RegExp.union (e :: es)).Matches := by
      obtain ⟨x', h5, h6, h7⟩ := h1 empty trivial
      have hL : x'.Matches = e.Matches := by
        funext w
        refine propext ((h6 w).trans ?_)
        simp only [cat, empty, Matches, Matches.MatchesSeq]
        constructor
        · rintro ⟨_, v, rfl, rfl, h⟩; exact h
        · intro h; exact ⟨[], w, rfl, rfl, h⟩
      refine ⟨os'' ++ [x'], ?_, by simp, fun w => ?_, fun st => ?_⟩
      · rw [allGood_append]
        exact ⟨h2, h5, trivial⟩
      · simp only [Matches, Matches.MatchesOne, ← h3 w]
        rw [matchesOne_iff, matchesOne_iff]
        simp only [List.mem_append, List.mem_singleton, or_and_right, exists_or, exists_eq_left, hL]
        exact or_comm
      · rw [hd]
        exact (h7 [] st).trans (h4 [x'] st)
    refine ⟨?_, h⟩
    rw [parenthesize, if_neg (by simp [isSimple])]
    exact h.item

theorem reads_subs : ∀ es : List RegExp, WF.WFs es → Printable.AllPrintable es →
    ReadsItem (display.displaySubs es) (Matches.MatchesSeq es)
  | [], _, _ => by
    intro x hx
    refine ⟨x, hx, fun w => ?_, fun os st => .nil _⟩
    simp only [cat, Matches.MatchesSeq]
    constructor
    · intro h; exact ⟨w, [], by simp, h, rfl⟩
    · rintro ⟨u, _, rfl, h, rfl⟩; rwa [List.append_nil]
  | e :: es, hw, hp => by
    intro x hx
    obtain ⟨x₁, h1, h2, h3⟩ := (reads e hw.1 hp.1).1 x hx
    obtain ⟨x₂, h4, h5, h6⟩ := reads_subs es hw.2 hp.2 x₁ h1
    refine ⟨x₂, h4, fun w => ?_, fun os st => (h3 os st).trans (h6 os st)⟩
    have : x₁.Matches = cat x.Matches e.Matches := funext fun w => propext (h2 w)
    rw [h5, this, cat_assoc]
    exact Iff.rfl

theorem reads_union : ∀ es : List RegExp, WF.WFs es → Printable.AllPrintable es →
    ∃ os'' : Options, Good.AllGood os'' ∧ (∀ w, Matches.MatchesOne os'' w ↔ Matches.MatchesOne es w) ∧
      ∀ os st, Steps (display.displayUnion false es) (os :: st) ((os'' ++ os) :: st)
  | [], _, _ => ⟨[], trivial, fun _ => Iff.rfl, fun os st => .nil _⟩
  | e :: es, hw, hp => by
    obtain ⟨x', h5, h6, h7⟩ := (reads e hw.1 hp.1).1 empty trivial
    obtain ⟨os'', h2, h3, h4⟩ := reads_union es hw.2 hp.2
    have hL : x'.Matches = e.Matches := by
      funext w
      refine propext ((h6 w).trans ?_)
      simp only [cat, empty, Matches, Matches.MatchesSeq]
      constructor
      · rintro ⟨_, v, rfl, rfl, h⟩; exact h
      · intro h; exact ⟨[], w, rfl, rfl, h⟩
    have hd : display.displayUnion false (e :: es) =
        ['|'.toNat] ++ parenthesize e e.display ++ display.displayUnion false es := by
      simp only [display.displayUnion, Bool.false_eq_true, if_false]
    refine ⟨os'' ++ [x'], ?_, fun w => ?_, fun os st => ?_⟩
    · rw [allGood_append]
      exact ⟨h2, h5, trivial⟩
    · simp only [Matches.MatchesOne, ← h3 w]
      rw [matchesOne_iff, matchesOne_iff]
      simp only [List.mem_append, List.mem_singleton, or_and_right, exists_or, exists_eq_left, hL]
      exact or_comm
    · rw [hd]
      have := ((steps_or os st).trans (h7 os st)).trans (h4 (x' :: os) st)
      rwa [List.append_assoc os'' [x'] os]

end

theorem parse_of_steps {text : List Nat} {os : Options} (h : Steps text [[empty]] [os]) : parse text = .ok os.close := by
  obtain ⟨fuel', -, h2⟩ := h text.length [] (by simp)
  rw [List.append_nil] at h2
  unfold parse
  rw [h2]
  cases fuel' <;> rfl

theorem parse_display {e : RegExp} (hw : e.WF) (hp : e.Printable) :
    ∃ e', parse e.display = .ok e' ∧ ∀ w, e'.Matches w ↔ e.Matches w := by
  obtain ⟨-, os', h1, h2, h3, h4⟩ := reads e hw hp
  obtain ⟨-, h6⟩ := matches_close h1 h2
  exact ⟨_, parse_of_steps (h4 []), fun w => (h6 w).trans (h3 w)⟩

/-! ## Plain text -/

theorem steps_text {text : List Nat} (h : ∀ c ∈ text, c ∉ special) (x : RegExp) (os : Options) (st : List Options) :
    Steps text ((x :: os) :: st) ((text.foldl (fun e c => e.push (.set (single c))) x :: os) :: st) := by
  induction text generalizing x with
  | nil => exact .nil _
  | cons c text ih =>
    rw [List.forall_mem_cons] at h
    exact (steps_plain h.1 x os st).trans (ih h.2 _)

theorem good_text (text : List Nat) (x : RegExp) (hx : x.Good) :
    (text.foldl (fun e c => e.push (.set (single c))) x).Good ∧
      ∀ w, (text.foldl (fun e c => e.push (.set (single c))) x).Matches w ↔ cat x.Matches (· = text) w := by
  induction text generalizing x with
  | nil =>
    refine ⟨hx, fun w => ?_⟩
    simp only [List.foldl_nil, cat]
    constructor
    · intro h; exact ⟨w, [], by simp, h, rfl⟩
    · rintro ⟨u, _, rfl, h, rfl⟩; rwa [List.append_nil]
  | cons c text ih =>
    have hs : (RegExp.set (single c)).Good := by
      intro h
      have := (mem_single c c).2 rfl
      rw [h] at this
      exact RangeSet.mem_nil this
    obtain ⟨h1, h2⟩ := matches_push hx hs
    obtain ⟨h3, h4⟩ := ih _ h1
    refine ⟨h3, fun w => ?_⟩
    rw [List.foldl_cons, h4]
    have : (x.push (.set (single c))).Matches = cat x.Matches (RegExp.set (single c)).Matches := funext fun w => propext (h2 w)
    rw [this, cat_assoc]
    have : cat (RegExp.set (single c)).Matches (· = text) = (· = c :: text) := by
      funext w
      simp only [cat, Matches, mem_single]
      refine propext ⟨?_, fun h => ⟨[c], text, h, ⟨c, rfl, rfl⟩, rfl⟩⟩
      rintro ⟨_, _, rfl, ⟨_, rfl, rfl⟩, rfl⟩; rfl
    rw [this]

theorem matches_ofString (text : List Nat) (w : List Nat) : (ofString text).Matches w ↔ w = text := by
  rw [ofString, (good_text text empty trivial).2]
  simp only [cat, empty, Matches, Matches.MatchesSeq]
  constructor
  · rintro ⟨_, _, rfl, rfl, rfl⟩; rfl
  · rintro rfl; exact ⟨[], w, rfl, rfl, rfl⟩

/-- The expression of a plain text is a character, or a sequence of characters. -/
theorem ofString_eq (c d : Nat) (text : List Nat) :
    ofString [c] = .set (single c) ∧ ofString (c :: d :: text) = .seq ((c :: d :: text).map fun c => .set (single c)) := by
  refine ⟨rfl, ?_⟩
  have : ∀ (text : List Nat) (x : RegExp) (xs : List RegExp),
      text.foldl (fun (e : RegExp) c => e.push (.set (single c))) (.seq (x :: xs)) = .seq ((x :: xs) ++ text.map fun c => .set (single c)) := by
    intro text
    induction text with
    | nil => intro x xs; simp
    | cons c text ih =>
      intro x xs
      rw [List.foldl_cons, show (RegExp.seq (x :: xs)).push (.set (single c)) = .seq (x :: (xs ++ [.set (single c)])) from rfl, ih]
      simp
  exact this text _ [.set (single d)]

theorem simplified_text (text : List Nat) : (ofString text).simplified = ofString text := by
  have hs : ∀ c, (RegExp.set (single c)).isEmpty = false := by
    intro c
    have := (mem_single c c).2 rfl
    cases h : single c with
    | nil => rw [h] at this; exact absurd this RangeSet.mem_nil
    | cons => rfl
  match text with
  | [] => rfl
  | [c] => rfl
  | c :: d :: text =>
    rw [(ofString_eq c d text).2]
    simp only [simplified]
    congr 1
    induction (c :: d :: text) with
    | nil => rfl
    | cons c text ih => simp only [List.map_cons, simplified.filterSimplified, hs, Bool.false_eq_true, if_false, ih, simplified]

theorem close_one (e : RegExp) : Options.close [e] = e.simplified := by
  simp only [Options.close, List.reverse_cons, List.reverse_nil, List.nil_append, simplified]

theorem parse_text {text : List Nat} (h : ∀ c ∈ text, c ∉ special) : parse text = .ok (ofString text) := by
  have := parse_of_steps (steps_text h empty [] [])
  rwa [close_one, show text.foldl (fun e c => e.push (.set (single c))) empty = ofString text from rfl, simplified_text] at this

/-- A postfix operator after a text applies to all of it. -/
theorem parse_text_star {text : List Nat} (h : ∀ c ∈ text, c ∉ special) :
    parse (text ++ ['*'.toNat]) = .ok (.rep (ofString text) 0 u32Max) := by
  have h1 := parse_of_steps ((steps_text h empty [] []).trans (steps_postfix (.inr (.inl ⟨rfl, rfl⟩)) _ [] []))
  rw [show fmtBounds 0 u32Max = ['*'.toNat] from rfl, close_one,
    show text.foldl (fun e c => e.push (.set (single c))) empty = ofString text from rfl] at h1
  simpa only [simplified, simplified_text] using h1

/-- An expression in brackets, alone. -/
theorem parse_class {text : List Nat} {s : RangeSet} (h : parseCharset .start false [] text = .ok (s, []))
    : parse ('['.toNat :: text) = .ok (.set s) := by
  unfold parse
  simp only [List.length_cons]
  rw [parseLoop.eq_def]
  simp only
  rw [if_neg (by decide), if_neg (by decide), if_neg (by decide)]
  simp only [if_true, h]
  have : modifyTop (fun e => e.push (.set s)) [[empty]] = .ok [[.set s]] := rfl
  rw [this]
  have h2 : ∀ n st, parseLoop n st [] = .ok st := by intro n st; cases n <;> rfl
  show (do let st ← parseLoop text.length [[RegExp.set s]] []; _) = _
  rw [h2]
  rfl

end RegExp

end Verif
