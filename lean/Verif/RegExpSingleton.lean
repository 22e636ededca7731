import Verif.RegExpSpec

/-! # Singleton detection -/

set_option linter.unusedSectionVars false
set_option linter.unusedSimpArgs false

namespace Verif

namespace RegExp

/-- Neither a repetition nor a union of several expressions, nor of none. -/
def Plain : RegExp → Prop
  | .any => True
  | .set _ => True
  | .seq es => AllPlain es
  | .rep _ _ _ => False
  | .union es =>
    match es with
    | [e] => e.Plain
    | _ => False
where
  /-- All the expressions are plain. -/
  AllPlain : List RegExp → Prop
    | [] => True
    | e :: es => e.Plain ∧ AllPlain es

theorem len_eq_one {s : RangeSet} (h : s.WF) (hl : RangeSet.len s = 1) : ∃ c, s = [⟨c, c⟩] := by
  cases s with
  | nil => simp [RangeSet.len] at hl
  | cons r s =>
    cases s with
    | nil =>
      simp only [RangeSet.len, List.map_cons, List.map_nil, List.sum_cons, List.sum_nil] at hl
      obtain ⟨lo, hi⟩ := r
      have := h.1
      dsimp only at this hl
      obtain rfl : lo = hi := by omega
      exact ⟨lo, rfl⟩
    | cons r' s =>
      simp only [RangeSet.len, List.map_cons, List.sum_cons] at hl
      have h1 := h.1
      have h2 := h.2.2.1
      omega

mutual

/-- When `isSingleton` holds, `buildSingleton` does not panic. -/
theorem buildSingleton_total : ∀ e : RegExp, e.WF → e.isSingleton = true → ∃ s, e.buildSingleton = .ok s
  | .any, _, h => by simp [isSingleton] at h
  | .set s, hw, h => by
    simp only [isSingleton, beq_iff_eq] at h
    obtain ⟨c, rfl⟩ := len_eq_one hw.1 h
    exact ⟨[c], by simp [buildSingleton, CharRange.isEmpty]⟩
  | .seq es, hw, h => by
    simp only [isSingleton] at h
    simpa only [buildSingleton] using concat_total es hw h
  | .rep e min max, hw, h => by
    simp only [isSingleton, Bool.and_eq_true] at h
    simpa only [buildSingleton] using buildSingleton_total e hw.1 h.2
  | .union [], _, h => by simp [isSingleton] at h
  | .union [e], hw, h => by
    simp only [isSingleton] at h
    simpa only [buildSingleton] using buildSingleton_total e hw.1 h
  | .union (_ :: _ :: _), _, h => by simp [isSingleton] at h

theorem concat_total : ∀ es : List RegExp, WF.WFs es → isSingleton.allSingleton es = true →
    ∃ s, buildSingleton.concat es = .ok s
  | [], _, _ => ⟨[], rfl⟩
  | e :: es, hw, h => by
    simp only [isSingleton.allSingleton, Bool.and_eq_true] at h
    obtain ⟨s, hs⟩ := buildSingleton_total e hw.1 h.1
    obtain ⟨t, ht⟩ := concat_total es hw.2 h.2
    exact ⟨s ++ t, by simp only [buildSingleton.concat, hs, ht]; rfl⟩

end

theorem asSingleton_total {e : RegExp} (hw : e.WF) :
    e.asSingleton = .ok none ∧ e.isSingleton = false ∨
      ∃ s, e.asSingleton = .ok (some s) ∧ e.isSingleton = true ∧ e.buildSingleton = .ok s := by
  unfold asSingleton
  cases h : e.isSingleton with
  | false => exact .inl ⟨rfl, rfl⟩
  | true =>
    obtain ⟨s, hs⟩ := buildSingleton_total e hw h
    exact .inr ⟨s, by rw [hs]; rfl, rfl, hs⟩

mutual

theorem singleton_sound : ∀ e : RegExp, e.WF → e.Plain → e.isSingleton = true → ∀ s, e.buildSingleton = .ok s →
    ∀ w, e.Matches w ↔ w = s
  | .any, _, _, h => by simp [isSingleton] at h
  | .set s, hw, _, h => by
    simp only [isSingleton, beq_iff_eq] at h
    obtain ⟨c, rfl⟩ := len_eq_one hw.1 h
    intro t ht w
    simp only [buildSingleton, CharRange.isEmpty, Nat.lt_irrefl, decide_false, Bool.false_eq_true, if_false, Out.ok.injEq] at ht
    subst ht
    simp only [Matches, RangeSet.Mem, CharRange.Mem, List.mem_singleton, exists_eq_left]
    constructor
    · rintro ⟨x, hx, rfl⟩
      obtain rfl : x = c := by omega
      rfl
    · rintro rfl
      exact ⟨c, ⟨Nat.le_refl _, Nat.le_refl _⟩, rfl⟩
  | .seq es, hw, hp, h => by
    simp only [isSingleton] at h
    simp only [buildSingleton, Matches]
    exact concat_sound es hw hp h
  | .rep e min max, _, hp, _ => hp.elim
  | .union [], _, hp, _ => hp.elim
  | .union [e], hw, hp, h => by
    simp only [isSingleton] at h
    intro s hs w
    simp only [buildSingleton] at hs
    simp only [Matches, Matches.MatchesOne, or_false]
    exact singleton_sound e hw.1 hp h s hs w
  | .union (_ :: _ :: _), _, hp, _ => hp.elim

theorem concat_sound : ∀ es : List RegExp, WF.WFs es → Plain.AllPlain es → isSingleton.allSingleton es = true →
    ∀ s, buildSingleton.concat es = .ok s → ∀ w, Matches.MatchesSeq es w ↔ w = s
  | [], _, _, _ => by
    intro s hs w
    cases hs
    exact Iff.rfl
  | e :: es, hw, hp, h => by
    simp only [isSingleton.allSingleton, Bool.and_eq_true] at h
    intro s hs w
    obtain ⟨x, hx⟩ := buildSingleton_total e hw.1 h.1
    obtain ⟨y, hy⟩ := concat_total es hw.2 h.2
    have : s = x ++ y := by
      simp only [buildSingleton.concat, hx, hy] at hs
      cases hs
      rfl
    subst this
    have h1 := singleton_sound e hw.1 hp.1 h.1 x hx
    have h2 := concat_sound es hw.2 hp.2 h.2 y hy
    simp only [Matches.MatchesSeq, h1, h2]
    constructor
    · rintro ⟨u, v, rfl, rfl, rfl⟩; rfl
    · rintro rfl; exact ⟨x, y, rfl, rfl, rfl⟩

end

theorem exists_two {s : RangeSet} (h : s.WF) (hl : RangeSet.len s ≠ 1) :
    (∀ c, ¬ s.Mem c) ∨ ∃ c c', s.Mem c ∧ s.Mem c' ∧ c ≠ c' := by
  cases s with
  | nil => exact .inl fun c => RangeSet.mem_nil
  | cons r s =>
    right
    have h1 := h.1
    cases s with
    | nil =>
      simp only [RangeSet.len, List.map_cons, List.map_nil, List.sum_cons, List.sum_nil] at hl
      exact ⟨r.lo, r.hi, ⟨r, by simp, Nat.le_refl _, h1⟩, ⟨r, by simp, h1, Nat.le_refl _⟩, by omega⟩
    | cons r' s =>
      have h2 := h.2.1 r' (by simp)
      have h3 := h.2.2.1
      exact ⟨r.lo, r'.lo, ⟨r, by simp, Nat.le_refl _, h1⟩, ⟨r', by simp, Nat.le_refl _, h3⟩, by omega⟩

mutual

theorem singleton_complete : ∀ e : RegExp, e.WF → e.Plain → ∀ s, (∀ w, e.Matches w ↔ w = s) → e.isSingleton = true
  | .any, _, _ => by
    intro s h
    have h0 := (h [0]).1 ⟨0, by decide, rfl⟩
    have h1 := (h [1]).1 ⟨1, by decide, rfl⟩
    rw [← h0] at h1
    simp at h1
  | .set s, hw, _ => by
    intro t h
    simp only [isSingleton, beq_iff_eq]
    refine Classical.byContradiction fun hl => ?_
    rcases exists_two hw.1 hl with h1 | ⟨c, c', h1, h2, h3⟩
    · obtain ⟨c, hc, -⟩ := (h t).2 rfl
      exact h1 c hc
    · have h4 := (h [c]).1 ⟨c, h1, rfl⟩
      have h5 := (h [c']).1 ⟨c', h2, rfl⟩
      rw [← h4] at h5
      simp only [List.cons.injEq, and_true] at h5
      exact h3 h5.symm
  | .seq es, hw, hp => by
    intro s h
    simp only [isSingleton]
    simp only [Matches] at h
    exact concat_complete es hw hp s h
  | .rep e min max, _, hp => hp.elim
  | .union [], _, hp => hp.elim
  | .union [e], hw, hp => by
    intro s h
    simp only [isSingleton]
    simp only [Matches, Matches.MatchesOne, or_false] at h
    exact singleton_complete e hw.1 hp s h
  | .union (_ :: _ :: _), _, hp => hp.elim

theorem concat_complete : ∀ es : List RegExp, WF.WFs es → Plain.AllPlain es → ∀ s, (∀ w, Matches.MatchesSeq es w ↔ w = s) →
    isSingleton.allSingleton es = true
  | [], _, _ => fun _ _ => rfl
  | e :: es, hw, hp => by
    intro s h
    obtain ⟨x, y, rfl, hx, hy⟩ := (h s).2 rfl
    simp only [isSingleton.allSingleton, Bool.and_eq_true]
    refine ⟨singleton_complete e hw.1 hp.1 x fun w => ⟨fun hw => ?_, fun hw => hw ▸ hx⟩,
      concat_complete es hw.2 hp.2 y fun w => ⟨fun hw => ?_, fun hw => hw ▸ hy⟩⟩
    · exact List.append_cancel_right ((h _).1 ⟨w, y, rfl, hw, hy⟩)
    · exact List.append_cancel_left ((h _).1 ⟨x, w, rfl, hx, hw⟩)

end

end RegExp

end Verif
