import Verif.RegExpLang
import Verif.RegExpCanonical

/-!
# Properties of regular expressions (C30, C31, C32, C33)

The language of an expression (`Matches`) and the grammar of bracket expressions (`Class`) are in `Verif/RegExpSpec.lean`.
-/

set_option linter.unusedSectionVars false
set_option linter.unusedSimpArgs false

namespace Verif.Props

open Verif.RegExp

/-- The expression that matches one given character. -/
def chr (c : Char) : RegExp := .set [⟨c.toNat, c.toNat⟩]

theorem wf_chr (c : Char) (h : c.toNat ≤ lastChar) : (chr c).WF := by
  refine ⟨?_, ?_⟩
  · simp [RangeSet.WF]
  · simpa [RangeSet.Valid] using h

/-! ## C30 -/

/-- **C30** (partial). Compilation terminates. It panics only in a build with debug assertions, for an expression that
matches no string. Otherwise the automaton accepts the strings that the expression matches, provided that the expression has
no nonempty sequence, no repetition whose bounds are reversed, and no unbounded repetition of `x{n,}` for `n ≥ 2`. The full
statement would hold for every expression: it is refuted by the counterexamples below. -/
theorem C30_build_partial (e : RegExp) (he : e.WF) (hs : e.Supported) (debug : Bool) :
    (∃ N, ∀ n, N ≤ n → e.build debug n ≠ .fuel) ∧
    ∀ n, (e.build debug n = .panic → debug = true ∧ ∀ w, ¬ e.Matches w) ∧
      ∀ d, e.build debug n = .ok d → ∀ w, d.Accepts w ↔ e.Matches w := by
  obtain ⟨h1, h2⟩ := build_spec he debug
  have h3 := (lang_supported e he hs).1
  refine ⟨h1, fun n => ⟨fun hp => ?_, fun d hd w => ?_⟩⟩
  · obtain ⟨h4, h5⟩ := (h2 n).1 hp
    exact ⟨h4, fun w hw => h5 w ((h3 w).2 hw)⟩
  · rw [((h2 n).2 d hd).2, h3]

/-- `(x?|[y-z]{2,3})+` is compiled correctly. -/
example : ∃ e : RegExp, e = .rep (.union [.rep (chr 'x') 0 1, .rep (.set [⟨'y'.toNat, 'z'.toNat⟩]) 2 3]) 1 u32Max ∧ e.WF ∧
    e.Supported ∧ e.Matches [120, 121, 122] ∧ ¬ e.Matches [121] := by
  refine ⟨_, rfl, ?_, ?_, ?_, ?_⟩
  · refine ⟨⟨⟨wf_chr _ (by decide), by decide, by decide⟩, ⟨⟨?_, ?_⟩, by decide, by decide⟩, trivial⟩, by decide, by decide⟩
    · simp [RangeSet.WF]
    · simp [RangeSet.Valid, lastChar]
  · refine ⟨⟨⟨trivial, by decide, by simp [u32Max]⟩, ⟨trivial, by decide, by simp [u32Max]⟩, trivial⟩, by decide, fun _ => trivial⟩
  · refine ⟨2, by decide, .inr rfl, [120], [121, 122], rfl, .inl ⟨1, by decide, .inl (by decide), [120], [], rfl, ⟨120, ?_, rfl⟩, rfl⟩,
      [121, 122], [], rfl, .inr (.inl ⟨2, by decide, .inl (by decide), [121], [122], rfl, ⟨121, ?_, rfl⟩, [122], [], rfl, ⟨122, ?_, rfl⟩, rfl⟩), rfl⟩
    · exact ⟨_, List.mem_singleton.2 rfl, by decide, by decide⟩
    · exact ⟨_, List.mem_singleton.2 rfl, by decide, by decide⟩
    · exact ⟨_, List.mem_singleton.2 rfl, by decide, by decide⟩
  · -- each item has length 0, 1 (an `x`), 2 or 3
    rintro ⟨n, -, -, hn⟩
    have key : ∀ n w, Times (RegExp.union [.rep (chr 'x') 0 1, .rep (.set [⟨'y'.toNat, 'z'.toNat⟩]) 2 3]).Matches n w → w ≠ [121] := by
      intro n
      induction n with
      | zero => rintro w ⟨⟩; simp
      | succ n ih =>
        rintro w ⟨u, v, rfl, hu, hv⟩ huv
        cases u with
        | nil => exact ih _ hv huv
        | cons c u =>
          simp only [List.cons_append, List.cons.injEq, List.append_eq_nil_iff] at huv
          obtain ⟨rfl, rfl, rfl⟩ := huv
          simp only [Matches, Matches.MatchesOne, or_false] at hu
          rcases hu with ⟨m, -, hm, hu⟩ | ⟨m, hm, -, hu⟩
          · match m, hm, hu with
            | 0, _, hu => simp [Times] at hu
            | 1, _, ⟨x, y, hxy, ⟨c, ⟨r, hr, hc⟩, hx⟩, hy⟩ =>
              cases hx; cases hy
              rw [List.mem_singleton] at hr
              subst hr
              simp only [List.singleton_append, List.cons.injEq, and_true] at hxy
              subst hxy
              exact absurd hc (by simp [CharRange.Mem])
            | m + 2, hm, _ => simp [u32Max] at hm
          · match m, hm, hu with
            | m + 2, _, ⟨_, _, hxy, ⟨c, _, hx⟩, _, _, hy, ⟨c', _, hx'⟩, _⟩ =>
              subst hx; subst hx'; subst hy
              simp at hxy
    exact key n _ hn rfl

/-- **C30**, counterexamples: every nonempty sequence whose last item is not an unbounded repetition is compiled to an
automaton that accepts only the empty string. -/
theorem C30_sequence_counterexample (es : List RegExp) (e : RegExp) (hw : (RegExp.seq (es ++ [e])).WF) (he : e.WF)
    (hrep : ∀ x min, e ≠ .rep x min u32Max) (debug : Bool) (n : Nat) (d : DetAut Nat CharRange)
    (h : (RegExp.seq (es ++ [e])).build debug n = .ok d) (w : List Nat) : d.Accepts w ↔ w = [] := by
  rw [(((build_spec hw debug).2 n).2 d h).2, lang_seq es e hrep he]

/-- In particular a pattern made of ordinary characters, at least two, only matches the empty string. -/
theorem C30_text_counterexample (c c' : Nat) (text : List Nat) (hc : ∀ x ∈ c :: c' :: text, x ∉ special ∧ x ≤ lastChar) :
    ∃ e, parse (c :: c' :: text) = .ok e ∧ (∀ w, e.Matches w ↔ w = c :: c' :: text) ∧
      ∀ debug, (∃ N, ∀ n, N ≤ n → ∃ d, e.build debug n = .ok d) ∧
        ∀ n d, e.build debug n = .ok d → ∀ w, d.Accepts w ↔ w = [] := by
  refine ⟨_, parse_text fun x hx => (hc x hx).1, matches_ofString _, fun debug => ?_⟩
  rw [(ofString_eq c c' text).2]
  have hchar : ∀ x, x ≤ lastChar → (RegExp.set (single x)).WF := by
    intro x hx
    have h1 : RangeSet.WF (single x) := RangeSet.wf_insert (m := []) trivial _
    exact ⟨h1, valid_of_mem h1 fun d hd => by rw [mem_single] at hd; omega⟩
  have hw : (RegExp.seq ((c :: c' :: text).map fun c => .set (single c))).WF := by
    have : ∀ l : List Nat, (∀ x ∈ l, x ≤ lastChar) → WF.WFs (l.map fun c => .set (single c)) := by
      intro l
      induction l with
      | nil => exact fun _ => trivial
      | cons x l ih =>
        intro h
        rw [List.forall_mem_cons] at h
        exact ⟨hchar x h.1, ih h.2⟩
    exact this _ fun x hx => (hc x hx).2
  have hlast := List.dropLast_append_getLast (l := (c :: c' :: text)) (by simp)
  have hlast' := List.getLast_mem (l := (c :: c' :: text)) (by simp)
  generalize (c :: c' :: text).getLast (by simp) = last at hlast hlast'
  have hmap : ((c :: c' :: text).map fun c => RegExp.set (single c)) =
      ((c :: c' :: text).dropLast.map fun c => RegExp.set (single c)) ++ [.set (single last)] := by
    conv => lhs; rw [← hlast]
    rw [List.map_append]
    rfl
  rw [hmap] at hw ⊢
  have hl : ∀ w, (RegExp.seq (((c :: c' :: text).dropLast.map fun c => RegExp.set (single c)) ++ [.set (single last)])).lang.1 w ↔
      w = [] := lang_seq _ _ (by simp) (hchar last (hc last hlast').2)
  obtain ⟨⟨N, hN⟩, h2⟩ := build_spec hw debug
  refine ⟨⟨N, fun n hn => ?_⟩, fun n d h w => ?_⟩
  · cases hb : RegExp.build debug n (.seq (((c :: c' :: text).dropLast.map fun c => RegExp.set (single c)) ++ [.set (single last)])) with
    | ok d => exact ⟨d, rfl⟩
    | fuel => exact absurd hb (hN n hn)
    | err e => exact e.elim
    | panic => exact absurd ((hl []).2 rfl) (((h2 n).1 hb).2 [])
  · rw [((h2 n).2 d h).2, hl]

/-- The pattern `ab`. -/
example : ∀ x ∈ "ab".toList.map Char.toNat, x ∉ special ∧ x ≤ lastChar := by decide

/-- A repetition whose bounds are reversed, `x{2,1}`, accepts `x`; an unbounded repetition of `x{2,}` accepts `x`. -/
theorem C30_repeat_counterexample :
    (∀ debug n d, (RegExp.rep (chr 'x') 2 1).build debug n = .ok d → d.Accepts [120]) ∧
    ¬ (RegExp.rep (chr 'x') 2 1).Matches [120] ∧
    (∀ debug n d, (RegExp.rep (.rep (chr 'x') 2 u32Max) 0 u32Max).build debug n = .ok d → d.Accepts [120]) ∧
    ¬ (RegExp.rep (.rep (chr 'x') 2 u32Max) 0 u32Max).Matches [120] := by
  have hx : (chr 'x').WF := wf_chr _ (by decide)
  have hm : (chr 'x').lang.1 [120] := ⟨120, ⟨_, List.mem_singleton.2 rfl, by decide, by decide⟩, rfl⟩
  have hlen : ∀ n w, Times (chr 'x').Matches n w → w.length = n := by
    intro n
    induction n with
    | zero => rintro w ⟨⟩; rfl
    | succ n ih =>
      rintro w ⟨u, v, rfl, ⟨c, -, rfl⟩, hv⟩
      simp [ih v hv]
  refine ⟨fun debug n d h => ?_, ?_, fun debug n d h => ?_, ?_⟩
  · have hw : (RegExp.rep (chr 'x') 2 1).WF := ⟨hx, by decide, by decide⟩
    rw [(((build_spec hw debug).2 n).2 d h).2, lang, if_pos (by decide)]
    exact ⟨1, .inr rfl, Nat.le_refl _, [120], [], rfl, hm, rfl⟩
  · rintro ⟨n, h1, h2 | h2, -⟩
    · omega
    · simp [u32Max] at h2
  · have hw : (RegExp.rep (.rep (chr 'x') 2 u32Max) 0 u32Max).WF := ⟨⟨hx, by decide, by decide⟩, by decide, by decide⟩
    rw [(((build_spec hw debug).2 n).2 d h).2, lang, if_neg (by decide)]
    refine ⟨[], [120], rfl, rfl, .one (.inr ?_)⟩
    rw [lang, if_neg (by decide)]
    exact .one (.inl hm)
  · rintro ⟨n, -, -, hn⟩
    have : ∀ n w, Times (RegExp.rep (chr 'x') 2 u32Max).Matches n w → w.length ≠ 1 := by
      intro n
      induction n with
      | zero => rintro w ⟨⟩; simp
      | succ n ih =>
        rintro w ⟨u, v, rfl, ⟨m, h1, -, h2⟩, hv⟩
        have := hlen m u h2
        simp only [List.length_append]
        omega
    exact this n _ hn rfl

/-- With debug assertions, an expression that matches nothing makes compilation panic. -/
theorem C30_empty_panics : ∃ n, RegExp.build true n (.set []) = .panic := by
  have hw : (RegExp.set []).WF := ⟨trivial, by simp [RangeSet.Valid]⟩
  obtain ⟨⟨N, hN⟩, h2⟩ := build_spec hw true
  refine ⟨N, ?_⟩
  cases hb : RegExp.build true N (.set []) with
  | ok d =>
    obtain ⟨w, c, hc, -⟩ := ((h2 N).2 d hb).1 rfl
    exact absurd hc RangeSet.mem_nil
  | fuel => exact absurd hb (hN N (Nat.le_refl _))
  | err e => exact e.elim
  | panic => rfl

/-! ## C31 -/

/-- **C31** (partial). The printed form of an expression is parsed to an expression with the same language, provided that the
expression has no `Any`, no empty set or union, no repetition other than `?`, `*` and `+`, and no sequence of one repetition
or union. The full statement would hold for every expression, and postfix operators would apply to the preceding item: this
is refuted by the counterexamples below. -/
theorem C31_parse_display_partial (e : RegExp) (hw : e.WF) (hp : e.Printable) :
    ∃ e', parse e.display = .ok e' ∧ ∀ w, e'.Matches w ↔ e.Matches w := parse_display hw hp

/-- `(a|[b-d])?(x*)-` -/
example : ∃ e : RegExp, e = .seq [.rep (.union [chr 'a', .set [⟨'b'.toNat, 'd'.toNat⟩]]) 0 1, .rep (chr 'x') 0 u32Max, chr '-'] ∧ e.WF ∧
    e.Printable ∧ e.display = "((a|[b-d])?)(x*)\\-".toList.map Char.toNat := by
  refine ⟨_, rfl, ⟨⟨⟨wf_chr _ (by decide), ⟨?_, ?_⟩, trivial⟩, by decide, by decide⟩, ⟨wf_chr _ (by decide), by decide, by decide⟩,
    wf_chr _ (by decide), trivial⟩, ?_, by decide +kernel⟩
  · simp [RangeSet.WF]
  · simp [RangeSet.Valid, lastChar]
  · refine ⟨⟨⟨⟨⟨?_, ?_, trivial⟩, by simp⟩, .inl ⟨rfl, rfl⟩⟩, ⟨?_, .inr (.inl ⟨rfl, rfl⟩)⟩, ?_, trivial⟩, by simp⟩
    all_goals simp [Printable, chr]

/-- **C31**, exactly: a canonical expression (`RegExp.Canonical`: one without `Any`, empty sets, repetitions written with braces,
nested sequences, sequences of one item or with an item taken for empty, and unions of less than two items) is read back as it is
from its text. -/
theorem C31_canonical (e : RegExp) (hw : e.WF) (hc : e.Canonical) : parse e.display = .ok e := parse_display_canonical hw hc

/-- `(a|[b-d])?(x*)-|((yz)*)|` -/
example : ∃ e : RegExp, e = .union [.seq [.rep (.union [chr 'a', .set [⟨'b'.toNat, 'd'.toNat⟩]]) 0 1, .rep (chr 'x') 0 u32Max, chr '-'],
      .rep (.seq [chr 'y', chr 'z']) 0 u32Max, .seq []] ∧ e.WF ∧
    e.Canonical ∧ e.display = "((a|[b-d])?)(x*)\\-|(yz*)|".toList.map Char.toNat := by
  refine ⟨_, rfl, ⟨⟨⟨⟨wf_chr _ (by decide), ⟨?_, ?_⟩, trivial⟩, by decide, by decide⟩, ⟨wf_chr _ (by decide), by decide, by decide⟩,
    wf_chr _ (by decide), trivial⟩, ⟨⟨wf_chr _ (by decide), wf_chr _ (by decide), trivial⟩, by decide, by decide⟩, trivial, trivial⟩,
    ?_, by decide +kernel⟩
  · simp [RangeSet.WF]
  · simp [RangeSet.Valid, lastChar]
  · simp [Canonical, Canonical.Items, Canonical.All, chr, isEmpty, isEmpty.allEmpty, u32Max]

/-- **C31**: other expressions may be read back with the same language, as another expression: here the nested sequence is lost. -/
theorem C31_flattened : parse (RegExp.seq [chr 'x', .seq [chr 'a', chr 'b']]).display = .ok (.seq [chr 'x', chr 'a', chr 'b']) := by rfl

/-- A string is the only one matched by the expression made from it, and its ordinary characters are parsed as themselves. -/
theorem C31_text (text : List Nat) :
    (∀ w, (ofString text).Matches w ↔ w = text) ∧ ((∀ c ∈ text, c ∉ special) → parse text = .ok (ofString text)) :=
  ⟨matches_ofString text, parse_text⟩

/-- **C31**, counterexamples: after a text `s` of ordinary characters followed by another one, `c`, the operator `*` applies
to all of `sc`. The pattern `sc*` should match `s` and `scc`; it matches neither. -/
theorem C31_postfix_counterexample (s : List Nat) (c : Nat) (hne : s ≠ []) (hs : ∀ x ∈ s ++ [c], x ∉ special) :
    ∃ e, parse (s ++ [c] ++ ['*'.toNat]) = .ok e ∧ ¬ e.Matches s ∧ ¬ e.Matches (s ++ [c, c]) := by
  refine ⟨_, parse_text_star hs, ?_⟩
  have hlen : ∀ n w, Times (ofString (s ++ [c])).Matches n w → w.length = n * (s.length + 1) := by
    intro n
    induction n with
    | zero => rintro w ⟨⟩; simp
    | succ n ih =>
      rintro w ⟨u, v, rfl, hu, hv⟩
      rw [matches_ofString] at hu
      subst hu
      rw [List.length_append, ih v hv, Nat.add_mul, List.length_append]
      simp only [List.length_cons, List.length_nil]
      omega
  have hpos : 0 < s.length := List.length_pos_iff.2 hne
  constructor
  · rintro ⟨n, -, -, hn⟩
    have := hlen n _ hn
    cases n with
    | zero => omega
    | succ n => rw [Nat.add_mul] at this; omega
  · rintro ⟨n, -, -, hn⟩
    have := hlen n _ hn
    simp only [List.length_append, List.length_cons, List.length_nil] at this
    match n with
    | 0 => omega
    | 1 => omega
    | n + 2 => rw [Nat.add_mul] at this; omega

/-- The pattern `ab*`. -/
example : "a".toList.map Char.toNat ≠ [] ∧ ∀ x ∈ "a".toList.map Char.toNat ++ ['b'.toNat], x ∉ special := by decide

/-- Notations of repetitions: the numbers of times that each notation stands for. -/
inductive Repetition : String → (Nat → Prop) → Prop
  | optional : Repetition "?" fun k => k ≤ 1
  | star : Repetition "*" fun _ => True
  | plus : Repetition "+" fun k => 1 ≤ k
  | exactly (n : Nat) : Repetition (s!"\{{n}}") fun k => k = n
  | atLeast (n : Nat) : Repetition (s!"\{{n},}") fun k => n ≤ k
  | atMost (n : Nat) : Repetition (s!"\{,{n}}") fun k => k ≤ n
  | between (m n : Nat) : Repetition (s!"\{{m},{n}}") fun k => m ≤ k ∧ k ≤ n

/-- **C31**, repetitions. What is printed for a repetition is the usual notation of its bounds (`u32::MAX` stands for no bound). -/
theorem C31_repetition (e : RegExp) (min max : Nat) (h : min ≤ max) (hm : max ≤ u32Max) :
    ∃ text p, Repetition text p ∧ (RegExp.rep e min max).display = parenthesize e e.display ++ text.toList.map Char.toNat ∧
      ∀ k, p k ↔ min ≤ k ∧ (k ≤ max ∨ max = u32Max) := by
  have hu : u32Max ≠ 0 ∧ u32Max ≠ 1 := by decide
  suffices ∃ text p, Repetition text p ∧ fmtBounds min max = text.toList.map Char.toNat ∧
      ∀ k, p k ↔ min ≤ k ∧ (k ≤ max ∨ max = u32Max) by
    obtain ⟨t, p, h1, h2, h3⟩ := this
    exact ⟨t, p, h1, by rw [display, h2], h3⟩
  unfold fmtBounds
  split
  · exact ⟨_, _, .optional, by decide, by intro k; omega⟩
  · split
    · exact ⟨_, _, .star, by decide, by intro k; simp; omega⟩
    · split
      · exact ⟨_, _, .plus, by decide, by intro k; omega⟩
      · split
        · exact ⟨_, _, .atLeast min, by simp [fmtNat, toString], by intro k; omega⟩
        · split
          · exact ⟨_, _, .atMost max, by simp [fmtNat, toString], by intro k; omega⟩
          · split
            · exact ⟨_, _, .exactly min, by simp [fmtNat, toString], by intro k; omega⟩
            · exact ⟨_, _, .between min max, by simp [fmtNat, toString], by intro k; omega⟩

example : (RegExp.rep (chr 'x') 2 3).display = "x{2,3}".toList.map Char.toNat := by decide

/-- The printed forms of `Any`, of `x{2,3}`, of an empty union in a sequence, and of a sequence with a nested sequence of one
repetition, are parsed to expressions with another language: the string given is matched by one and not by the other. -/
theorem C31_display_counterexamples :
    (∃ e, parse RegExp.any.display = .ok e ∧ ¬ e.Matches [120] ∧ RegExp.any.Matches [120]) ∧
    (∃ e, parse (RegExp.rep (chr 'x') 2 3).display = .ok e ∧ ¬ e.Matches [120, 120] ∧ (RegExp.rep (chr 'x') 2 3).Matches [120, 120]) ∧
    (∃ e, parse (RegExp.seq [chr 'x', .union []]).display = .ok e ∧ e.Matches [120] ∧
      ¬ (RegExp.seq [chr 'x', .union []]).Matches [120]) ∧
    ∃ e, parse (RegExp.seq [chr 'a', .seq [.rep (chr 'b') 0 u32Max]]).display = .ok e ∧ ¬ e.Matches [97] ∧
      (RegExp.seq [chr 'a', .seq [.rep (chr 'b') 0 u32Max]]).Matches [97] := by
  have hx : (chr 'x').Matches [120] := ⟨120, ⟨_, List.mem_singleton.2 rfl, by decide, by decide⟩, rfl⟩
  have ha : (chr 'a').Matches [97] := ⟨97, ⟨_, List.mem_singleton.2 rfl, by decide, by decide⟩, rfl⟩
  refine ⟨⟨_, parse_text (text := ".".toList.map Char.toNat) (by decide), ?_, 120, by decide, rfl⟩,
    ⟨_, parse_text (text := "x{2,3}".toList.map Char.toNat) (by decide), ?_, ?_⟩,
    ⟨.seq [chr 'x'], by rfl, ⟨[120], [], rfl, hx, rfl⟩, ?_⟩,
    ⟨.rep (.seq [chr 'a', chr 'b']) 0 u32Max, by rfl, ?_, ⟨[97], [], rfl, ha, [], [], rfl, ⟨[], [], rfl, ⟨0, by decide, .inr rfl, rfl⟩, rfl⟩, rfl⟩⟩⟩
  · rw [matches_ofString]; decide
  · rw [matches_ofString]; decide
  · exact ⟨2, by decide, .inl (by decide), [120], [120], rfl, hx, [120], [], rfl, hx, rfl⟩
  · rintro ⟨_, _, -, -, _, _, -, h, -⟩
    exact h
  · rintro ⟨n, -, -, hn⟩
    have hlen : ∀ w, (RegExp.seq [chr 'a', chr 'b']).Matches w → w.length = 2 := by
      rintro w ⟨_, _, rfl, ⟨_, -, rfl⟩, _, _, rfl, ⟨_, -, rfl⟩, rfl⟩
      rfl
    match n, hn with
    | 0, hn => cases hn
    | n + 1, ⟨u, v, h, hu, _⟩ =>
      have h1 := congrArg List.length h
      rw [List.length_append, hlen u hu] at h1
      simp at h1
      omega

/-! ## C32 -/

/-- **C32.** Bracket expressions. The parser accepts exactly the texts of the grammar `Class` of
`Verif/RegExpSpec.lean`; the set it returns has exactly the characters that are listed, or exactly the others when there is a
`^`. -/
theorem C32_class (text : List Nat) (htext : ∀ c ∈ text, c ≤ lastChar) :
    (∀ negated items rest, Class negated items text rest →
      ∃ s, parseCharset .start false [] text = .ok (s, rest) ∧ ∀ c, s.Mem c ↔ Denotes negated items c) ∧
    (∀ s rest, parseCharset .start false [] text = .ok (s, rest) →
      ∃ negated items, Class negated items text rest ∧ ∀ c, s.Mem c ↔ Denotes negated items c) := by
  refine ⟨fun negated items rest h => ⟨_, (parseCharset_iff text rest _).2 ⟨_, _, h, rfl⟩, ?_⟩, fun s rest h => ?_⟩
  · exact (finish_spec negated items (class_valid h htext)).2.2
  · obtain ⟨negated, items, h1, rfl⟩ := (parseCharset_iff text rest s).1 h
    exact ⟨negated, items, h1, (finish_spec negated items (class_valid h1 htext)).2.2⟩

/-- **C32**, through `parse`: the pattern made of a bracket expression matches the strings of one character, one of those
that are denoted. -/
theorem C32_parse_class (negated : Bool) (items : List CharRange) (text : List Nat) (htext : ∀ c ∈ text, c ≤ lastChar)
    (h : Class negated items text []) :
    ∃ e, parse ('['.toNat :: text) = .ok e ∧ ∀ w, e.Matches w ↔ ∃ c, Denotes negated items c ∧ w = [c] := by
  obtain ⟨s, h1, h2⟩ := (C32_class text htext).1 negated items [] h
  refine ⟨_, parse_class h1, fun w => ?_⟩
  simp only [Matches, h2]

/-- `[^a-z\-]` -/
example : Class true [⟨'a'.toNat, 'z'.toNat⟩, ⟨'-'.toNat, '-'.toNat⟩] ("^a-z\\-]".toList.map Char.toNat) [] ∧
    ∀ c ∈ "^a-z\\-]".toList.map Char.toNat, c ≤ lastChar := by
  refine ⟨?_, by decide⟩
  refine .negative (body := "a-z\\-".toList.map Char.toNat) ?_
  refine .range (t := ['a'.toNat]) (t' := ['z'.toNat]) (.plain (by decide) (by decide)) (by simp) (.plain (by decide)) ?_
  exact .char (t := ['\\'.toNat, '-'.toNat]) (.escape (.inr ⟨by decide, rfl⟩)) (by simp) (.nil _)

/-- After a character, a dash always makes a range: the bracket that should close `[a-]` is taken as the end of the range, and
the pattern is rejected. -/
theorem C32_trailing_dash_counterexample : parse ("[a-]".toList.map Char.toNat) = .err .incompleteCharacterSet := by
  rfl

/-! ## C33 -/

/-- **C33** (partial). Singleton detection never panics. When the expression has no repetition, and no union other than of
one expression, it gives the only string that is matched, when there is one. The full statement would hold for every
expression: it is refuted by the counterexamples below. -/
theorem C33_singleton_partial (e : RegExp) (hw : e.WF) :
    (∃ r, e.asSingleton = .ok r) ∧
    (e.Plain → ∀ s, e.asSingleton = .ok (some s) ↔ ∀ w, e.Matches w ↔ w = s) := by
  rcases asSingleton_total hw with ⟨h1, h2⟩ | ⟨t, h1, h2, h3⟩
  · refine ⟨⟨_, h1⟩, fun hp s => ⟨fun h => ?_, fun h => ?_⟩⟩
    · rw [h1] at h; cases h
    · rw [singleton_complete e hw hp s h] at h2; cases h2
  · refine ⟨⟨_, h1⟩, fun hp s => ⟨fun h => ?_, fun h => ?_⟩⟩
    · rw [h1] at h
      cases h
      exact singleton_sound e hw hp h2 _ h3
    · have := (h t).1 ((singleton_sound e hw hp h2 t h3 t).2 rfl)
      rw [h1, this]

/-- `a(b)`, and the string `ab`. -/
example : (RegExp.seq [chr 'a', .union [chr 'b']]).WF ∧ (RegExp.seq [chr 'a', .union [chr 'b']]).Plain ∧
    (RegExp.seq [chr 'a', .union [chr 'b']]).asSingleton = .ok (some [97, 98]) :=
  ⟨⟨wf_chr _ (by decide), ⟨wf_chr _ (by decide), trivial⟩, trivial⟩, ⟨trivial, trivial, trivial⟩, rfl⟩

/-- **C33**, counterexamples: a repetition. The only string matched by `c{n}`, for `n ≥ 2`, is not the one that is
returned. -/
theorem C33_repeat_counterexample (c n : Nat) :
    (RegExp.rep (.set [⟨c, c⟩]) (n + 2) (n + 2)).asSingleton = .ok (some [c]) ∧
      ¬ (RegExp.rep (.set [⟨c, c⟩]) (n + 2) (n + 2)).Matches [c] := by
  constructor
  · have h1 : RegExp.isSingleton (.set [⟨c, c⟩]) = true := by
      simp only [isSingleton, RangeSet.len, List.map_cons, List.map_nil, List.sum_cons, List.sum_nil]
      rw [beq_iff_eq]
      omega
    have h2 : RegExp.isSingleton (.rep (.set [⟨c, c⟩]) (n + 2) (n + 2)) = true := by
      rw [isSingleton, h1]
      simp
    unfold asSingleton
    rw [if_pos h2]
    simp [buildSingleton, CharRange.isEmpty]
  · rintro ⟨m, h1, -, h2⟩
    match m, h1, h2 with
    | m + 2, _, ⟨_, _, h, ⟨_, _, rfl⟩, _, _, rfl, ⟨_, _, rfl⟩, _⟩ => simp at h

/-- A union of equal expressions, and a repetition of the empty string: they match one string, that is not returned. -/
theorem C33_missed_counterexample :
    ((RegExp.union [chr 'a', chr 'a']).asSingleton = .ok none ∧ ∀ w, (RegExp.union [chr 'a', chr 'a']).Matches w ↔ w = [97]) ∧
    ((RegExp.rep RegExp.empty 0 1).asSingleton = .ok none ∧ ∀ w, (RegExp.rep RegExp.empty 0 1).Matches w ↔ w = []) := by
  have ha : ∀ w, (chr 'a').Matches w ↔ w = [97] := by
    have hw : (chr 'a').WF := wf_chr _ (by decide)
    exact ((C33_singleton_partial _ hw).2 trivial [97]).1 rfl
  refine ⟨⟨rfl, fun w => ?_⟩, rfl, fun w => ?_⟩
  · simp only [Matches, Matches.MatchesOne, ha, or_false, or_self]
  · simp only [Matches]
    have : ∀ w, RegExp.empty.Matches w ↔ w = [] := fun w => Iff.rfl
    simp only [times_eps this]
    exact ⟨fun ⟨_, _, _, h⟩ => h, fun h => ⟨0, by decide, .inl (by decide), h⟩⟩

end Verif.Props
