import Verif.RegExpBuild
import Verif.DetLemmas

/-! # What a compiled regular expression accepts -/

set_option linter.unusedSectionVars false
set_option linter.unusedSimpArgs false

namespace Verif

namespace Nfa

variable {Q : Type _} [LinearOrder Q]

/-- The states of the deterministic automaton are reached from the initial state. -/
theorem determinize_reached {a : Nfa Q} (ha : a.WF) {n : Nat} {d : DetAut (List Q) CharRange} (h : a.determinize n = some d) :
    ∀ s ∈ d.transitions.map Prod.fst, ∃ w, d.Path d.initial w s := by
  have happ : ∀ {p q r : List Q} {u v : List Nat}, d.Path p u q → d.Path q v r → d.Path p (u ++ v) r := by
    intro p q r u v h1 h2
    induction h1 with
    | nil => exact h2
    | cons h3 h4 h5 h6 _ ih => exact .cons h3 h4 h5 h6 (ih h2)
  have hs := determinize_spec h
  unfold determinize at h
  dsimp only at h
  rw [Option.map_eq_some_iff] at h
  obtain ⟨vis, hv, hd⟩ := h
  intro s hsm
  have hsv : s ∈ vis := by
    rw [← hd] at hsm
    dsimp only at hsm
    rw [List.map_map] at hsm
    simpa using hsm
  rcases explore_sound hv s hsv with h | ⟨i, hi, hr⟩
  · simp at h
  · rw [List.mem_singleton] at hi
    subst hi
    rw [hs.1]
    have : (∃ w, d.Path (a.closure a.initials) w s) ∧ s ∈ d.transitions.map Prod.fst := by
      clear hsm hsv
      induction hr with
      | refl => exact ⟨⟨[], .nil _⟩, hs.1 ▸ hs.2.2.1⟩
      | tail _ h1 h2 ih =>
        obtain ⟨⟨w, hw⟩, hm⟩ := ih
        cases h1
        obtain ⟨⟨r, u⟩, hru, rfl⟩ := List.mem_map.1 h2
        obtain ⟨e, he, rfl⟩ := List.mem_map.1 hm
        have he2 := hs.2.2.2.1 e he
        rw [← he2.1] at hru
        refine ⟨⟨w ++ [r.lo], happ hw (.cons (r := r) (ts := e.2) he hru (Nat.le_refl _) ?_ (.nil _))⟩, he2.2 _ hru⟩
        rw [he2.1] at hru
        have hne : ∀ m : RangeMap (List Q), m.WF → ∀ t ∈ m, t.1.lo ≤ t.1.hi := by
          intro m hm
          induction m with
          | nil => simp
          | cons x m ih =>
            obtain ⟨h1, h2, h3⟩ := hm
            rw [List.forall_mem_cons]
            exact ⟨h1, ih h3⟩
        exact hne _ (table_detTransitions ha e.1).1 _ hru
    exact this.1

theorem determinize_table {a : Nfa Q} (ha : a.WF) {n : Nat} {d : DetAut (List Q) CharRange} (h : a.determinize n = some d) :
    DetAut.TableWF d.transitions := by
  have hs := determinize_spec h
  refine ⟨hs.2.1, fun e he => ?_⟩
  rw [(hs.2.2.2.1 e he).1]
  have : ∀ m : RangeMap (List Q), m.WF → (m.map Prod.fst).Nodup := by
    intro m hm
    induction m with
    | nil => exact List.nodup_nil
    | cons x m ih =>
      obtain ⟨h1, h2, h3⟩ := hm
      rw [List.map_cons, List.nodup_cons]
      refine ⟨fun hx => ?_, ih h3⟩
      obtain ⟨y, hy, hxy⟩ := List.mem_map.1 hx
      have := h2 y hy
      rw [hxy] at this
      omega
  exact this _ (table_detTransitions ha e.1).1

end Nfa

namespace RegExp

theorem buildNfa_spec {e : RegExp} (he : e.WF) : e.buildNfa.WF ∧ ∀ w, e.buildNfa.Accepts w ↔ e.lang.1 w := by
  obtain ⟨a, b, s', E, h1, h2, h3⟩ := builds_into e he (0, Nfa.new) Nfa.wf_new
  unfold buildNfa
  rw [h1]
  dsimp only
  refine ⟨Nfa.wf_addFinal (Nfa.wf_addInitial h2.wf a) b, fun w => ?_⟩
  have hE : ∀ p l q, ((s'.2.addInitial a).addFinal b).Edge p l q ↔ E p l q := by
    intro p l q
    rw [show ((s'.2.addInitial a).addFinal b).Edge p l q = s'.2.Edge p l q from rfl, h2.edges]
    constructor
    · rintro (⟨row, qs, h, -⟩ | h)
      · simp [Nfa.new] at h
      · exact h
    · exact .inr
  have hpath : ∀ p w q, ((s'.2.addInitial a).addFinal b).Path p w q ↔ EPath E p w q := by
    intro p w q
    constructor
    · intro h
      induction h with
      | nil => exact .nil _
      | epsilon h1 h2 h3 _ ih => exact .epsilon ((hE _ _ _).1 ⟨_, _, h1, h2, h3⟩) ih
      | char h1 h2 h3 h4 _ ih => exact .char ((hE _ _ _).1 ⟨_, _, h1, h2, h4⟩) h3 ih
    · intro h
      induction h with
      | nil => exact .nil _
      | epsilon h1 _ ih =>
        obtain ⟨_, _, h1, h2, h3⟩ := (hE _ _ _).2 h1
        exact .epsilon h1 h2 h3 ih
      | char h1 h2 _ ih =>
        obtain ⟨_, _, h1, h3, h4⟩ := (hE _ _ _).2 h1
        exact .char h1 h3 h2 h4 ih
  have hi : ∀ i, i ∈ ((s'.2.addInitial a).addFinal b).initials ↔ i = a := by
    intro i
    rw [show ((s'.2.addInitial a).addFinal b).initials = OSet.insert a s'.2.initials from rfl, OSet.mem_insert, h2.initials]
    simp [Nfa.new]
  have hf : ∀ i, i ∈ ((s'.2.addInitial a).addFinal b).finals ↔ i = b := by
    intro i
    rw [show ((s'.2.addInitial a).addFinal b).finals = OSet.insert b s'.2.finals from rfl, OSet.mem_insert, h2.finals]
    simp [Nfa.new]
  unfold Nfa.Accepts
  simp only [hi, hf, hpath, exists_eq_left]
  exact h3.accepts w

/-- Compilation: it terminates, it panics only with debug assertions and when no string is accepted; otherwise the result
accepts the strings of `lang`. -/
theorem build_spec {e : RegExp} (he : e.WF) (debug : Bool) :
    (∃ N, ∀ n, N ≤ n → e.build debug n ≠ .fuel) ∧
    ∀ n, (e.build debug n = .panic → debug = true ∧ ∀ w, ¬ e.lang.1 w) ∧
      ∀ d, e.build debug n = .ok d → (debug = true → ∃ w, e.lang.1 w) ∧ ∀ w, d.Accepts w ↔ e.lang.1 w := by
  obtain ⟨hw, ha⟩ := buildNfa_spec he
  refine ⟨?_, fun n => ?_⟩
  · obtain ⟨N, hN⟩ := Nfa.determinize_total hw
    refine ⟨N, fun n hn => ?_⟩
    obtain ⟨d, hd⟩ := hN n hn
    unfold build
    rw [hd]
    dsimp only
    split <;> simp
  · unfold build
    cases hd : e.buildNfa.determinize n with
    | none => simp
    | some dt =>
      dsimp only
      have hacc : ∀ w, dt.Accepts w ↔ e.lang.1 w := fun w => (Nfa.determinize_accepts hw hd w).trans (ha w)
      have hfin : dt.finals.isEmpty = true ↔ ∀ w, ¬ e.lang.1 w := by
        rw [List.isEmpty_iff]
        constructor
        · intro h w hl
          obtain ⟨q, hq, -⟩ := (hacc w).2 hl
          rw [h] at hq
          simp at hq
        · intro h
          rw [List.eq_nil_iff_forall_not_mem]
          intro q hq
          obtain ⟨w, hp⟩ := Nfa.determinize_reached hw hd q (((Nfa.determinize_spec hd).2.2.2.2 q).1 hq).1
          exact h w ((hacc w).1 ⟨q, hq, hp⟩)
      split
      · rename_i h
        rw [Bool.and_eq_true] at h
        exact ⟨fun _ => ⟨h.1, hfin.1 h.2⟩, by simp⟩
      · rename_i h
        rw [Bool.and_eq_true, not_and] at h
        refine ⟨by simp, ?_⟩
        rintro d ⟨⟩
        refine ⟨fun hdebug => ?_, fun w => ?_⟩
        · have := h hdebug
          rw [hfin] at this
          exact Classical.not_forall_not.1 this
        · rw [DetAut.map_accepts dt (Nfa.determinize_table hw hd) 0 (DetAut.map_counter dt), hacc]

theorem Times.congr {A B : Lang} (h : ∀ w, A w ↔ B w) (n : Nat) (w : List Nat) : Times A n w ↔ Times B n w := by
  have : A = B := funext fun w => propext (h w)
  rw [this]

/-- An iteration of an iteration is an iteration. -/
theorem Star.of_star {A B : Lang} (h : ∀ w, B w → Star A w) {w : List Nat} (hw : Star B w) : Star A w := by
  obtain ⟨n, hn⟩ := hw
  induction n generalizing w with
  | zero => cases hn; exact .nil
  | succ n ih =>
    obtain ⟨u, v, rfl, hu, hv⟩ := hn
    exact (h u hu).append (ih hv)

theorem Times.split {A : Lang} {n m : Nat} {w : List Nat} (h : Times A (n + m) w) : ∃ u v, w = u ++ v ∧ Times A n u ∧ Times A m v := by
  induction n generalizing w with
  | zero => exact ⟨[], w, rfl, rfl, by rwa [Nat.zero_add] at h⟩
  | succ n ih =>
    rw [Nat.add_right_comm] at h
    obtain ⟨u, v, rfl, hu, hv⟩ := h
    obtain ⟨x, y, rfl, hx, hy⟩ := ih hv
    exact ⟨u ++ x, y, by rw [List.append_assoc], ⟨u, x, rfl, hu, hx⟩, hy⟩

/-- The repeated expression is not itself repeated at least twice without bound. -/
def Loopable : RegExp → Prop
  | .rep _ min max => max = u32Max → min ≤ 1
  | _ => True

/-- The expressions that are compiled correctly: no nonempty sequence, no repetition whose bounds are reversed, no unbounded
repetition of `x{n,}` for `n ≥ 2`. -/
def Supported : RegExp → Prop
  | .any => True
  | .set _ => True
  | .seq es => es = []
  | .rep e min max => e.Supported ∧ min ≤ max ∧ (max = u32Max → e.Loopable)
  | .union es => AllSupported es
where
  /-- All the expressions are supported. -/
  AllSupported : List RegExp → Prop
    | [] => True
    | e :: es => e.Supported ∧ AllSupported es

mutual

theorem lang_supported : ∀ e : RegExp, e.WF → e.Supported →
    (∀ w, e.lang.1 w ↔ e.Matches w) ∧ (e.Loopable → ∀ w, e.lang.2 w → Star e.lang.1 w)
  | .any, _, _ => ⟨fun _ => Iff.rfl, fun _ w h => by cases h; exact .nil⟩
  | .set _, _, _ => ⟨fun _ => Iff.rfl, fun _ w h => by cases h; exact .nil⟩
  | .seq es, _, hs => by
    obtain rfl : es = [] := hs
    exact ⟨fun _ => Iff.rfl, fun _ w h => by cases h; exact .nil⟩
  | .union es, hw, hs => ⟨fun w => anyOf_supported es hw hs w, fun _ w h => by cases h; exact .nil⟩
  | .rep e min max, hw, ⟨hs, hle, hl⟩ => by
    obtain ⟨ih1, ih2⟩ := lang_supported e hw.1 hs
    by_cases hlt : max < u32Max
    · have : (RegExp.rep e min max).lang = (fun w => ∃ n, (min ≤ n ∨ n = max) ∧ n ≤ max ∧ Times e.lang.1 n w, eps) := by
        rw [lang, if_pos hlt]
      rw [this]
      refine ⟨fun w => ?_, fun _ w h => by cases h; exact .nil⟩
      simp only [Matches]
      constructor
      · rintro ⟨n, h1, h2, h3⟩
        exact ⟨n, by omega, .inl h2, (Times.congr ih1 n w).1 h3⟩
      · rintro ⟨n, h1, h2, h3⟩
        exact ⟨n, .inl h1, by omega, (Times.congr ih1 n w).2 h3⟩
    · obtain rfl : max = u32Max := by have := hw.2.2; omega
      have hstar : ∀ w, Star (fun w => e.lang.1 w ∨ e.lang.2 w) w ↔ Star e.lang.1 w := fun w =>
        ⟨Star.of_star fun u hu => hu.elim .one (ih2 (hl rfl) u), Star.of_star fun u hu => .one (.inl hu)⟩
      have : (RegExp.rep e min u32Max).lang = (fun w => ∃ u v, w = u ++ v ∧ Times e.lang.1 min u ∧
          Star (fun w => e.lang.1 w ∨ e.lang.2 w) v, Star fun w => e.lang.1 w ∨ e.lang.2 w) := by
        rw [lang, if_neg hlt]
      rw [this]
      refine ⟨fun w => ?_, fun hloop w h => ?_⟩
      · simp only [Matches]
        constructor
        · rintro ⟨u, v, rfl, h1, h2⟩
          obtain ⟨n, hn⟩ := (hstar v).1 h2
          exact ⟨min + n, by omega, by simp, (Times.congr ih1 _ _).1 (h1.append hn)⟩
        · rintro ⟨n, h1, -, h3⟩
          obtain ⟨m, rfl⟩ := Nat.exists_eq_add_of_le h1
          obtain ⟨u, v, rfl, hu, hv⟩ := ((Times.congr ih1 _ _).2 h3).split
          exact ⟨u, v, rfl, hu, (hstar v).2 ⟨m, hv⟩⟩
      · have hm : min ≤ 1 := hloop rfl
        obtain ⟨n, hn⟩ := (hstar w).1 h
        cases n with
        | zero => cases hn; exact .nil
        | succ n =>
          refine .one ?_
          dsimp only
          rcases (show min = 0 ∨ min = 1 by omega) with rfl | rfl
          · exact ⟨[], w, rfl, rfl, h⟩
          · obtain ⟨u, v, rfl, hu, hv⟩ := hn
            exact ⟨u, v, rfl, ⟨u, [], by simp, hu, rfl⟩, (hstar v).2 ⟨n, hv⟩⟩

theorem anyOf_supported : ∀ es : List RegExp, WF.WFs es → Supported.AllSupported es →
    ∀ w, lang.anyOf es w ↔ Matches.MatchesOne es w
  | [], _, _, _ => Iff.rfl
  | e :: es, hw, hs, w => by
    rw [show lang.anyOf (e :: es) w = (e.lang.1 w ∨ lang.anyOf es w) from rfl, (lang_supported e hw.1 hs.1).1,
      anyOf_supported es hw.2 hs.2]
    exact Iff.rfl

end

/-- What a sequence is compiled to, when its last item is not an unbounded repetition. -/
theorem lang_seq (es : List RegExp) (e : RegExp) (he : ∀ x min, e ≠ .rep x min u32Max) (hw : e.WF) (w : List Nat) :
    (RegExp.seq (es ++ [e])).lang.1 w ↔ w = [] := by
  have hX : e.lang.2 = eps := by
    cases e with
    | any => rfl
    | set => rfl
    | seq => rfl
    | union => rfl
    | rep e min max =>
      have : max < u32Max := by
        have h1 := hw.2.2
        have h2 : max ≠ u32Max := fun h => he e min (by rw [h])
        omega
      rw [lang, if_pos this]
  have : ∀ (X : Lang), lang.lastExit X (es ++ [e]) = eps := by
    induction es with
    | nil => exact fun X => hX
    | cons x es ih => exact fun X => ih _
  rw [show (RegExp.seq (es ++ [e])).lang.1 = lang.lastExit eps (es ++ [e]) from rfl, this]
  exact Iff.rfl

end RegExp

end Verif
