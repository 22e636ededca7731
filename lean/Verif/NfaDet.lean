import Verif.NfaLemmas
import Mathlib.Data.List.Sublists

/-! # Determinization: the language is preserved -/

set_option linter.unusedSectionVars false
set_option linter.unusedSimpArgs false

namespace Verif

namespace Nfa

variable {Q : Type _} [LinearOrder Q]

/-- Closed under ε-transitions. -/
def EpsClosed (a : Nfa Q) (s : List Q) : Prop := ∀ q ∈ s, ∀ t, a.Path q [] t → t ∈ s

theorem epsClosed_closure {a : Nfa Q} (ha : a.WF) (qs : List Q) : a.EpsClosed (a.closure qs) := by
  intro q hq t ht
  rw [mem_closure ha] at hq ⊢
  obtain ⟨p, hp, h⟩ := hq
  exact ⟨p, hp, h.append ht⟩

theorem epsClosed_det {a : Nfa Q} (ha : a.WF) {states s : List Q} {r : CharRange}
    (h : (r, s) ∈ a.detTransitions states) {c : Nat} (hc : r.Mem c) : a.EpsClosed s := by
  intro q hq t ht
  obtain ⟨-, hs⟩ := mem_detTransitions ha h hc
  rw [hs] at hq ⊢
  obtain ⟨p, hp, l, qs, h1, h2, x, hx, hpath⟩ := hq
  exact ⟨p, hp, l, qs, h1, h2, x, hx, hpath.append ht⟩

/-- A path that spells a nonempty word begins with ε-transitions and a transition by the first character. -/
theorem path_cons {a : Nfa Q} {p q : Q} {c : Nat} {w : List Nat} (h : a.Path p (c :: w) q) :
    ∃ p' row label qs x, a.Path p [] p' ∧ (p', row) ∈ a.transitions ∧ (some label, qs) ∈ row ∧ label.Mem c ∧ x ∈ qs ∧
      a.Path x w q := by
  generalize hv : c :: w = v at h
  induction h with
  | nil => cases hv
  | epsilon h1 h2 h3 _ ih =>
    obtain ⟨p', row, label, qs, x, h4, h5⟩ := ih hv
    exact ⟨p', row, label, qs, x, .epsilon h1 h2 h3 h4, h5⟩
  | char h1 h2 h3 h4 h5 => cases hv; exact ⟨_, _, _, _, _, .nil _, h1, h2, h3, h4, h5⟩

variable {n : Nat} {a : Nfa Q} {d : DetAut (List Q) CharRange}

/-- What the exploration gives. -/
theorem determinize_spec (h : a.determinize n = some d) :
    d.initial = a.closure a.initials ∧ (d.transitions.map Prod.fst).Nodup ∧ (d.initial ∈ d.transitions.map Prod.fst) ∧
    (∀ e ∈ d.transitions, e.2 = a.detTransitions e.1 ∧ ∀ t ∈ e.2, t.2 ∈ d.transitions.map Prod.fst) ∧
    (∀ s, s ∈ d.finals ↔ s ∈ d.transitions.map Prod.fst ∧ ∃ q ∈ s, q ∈ a.finals) := by
  unfold determinize at h
  dsimp only at h
  rw [Option.map_eq_some_iff] at h
  obtain ⟨vis, hv, rfl⟩ := h
  have hk : (List.map Prod.fst (vis.reverse.map fun s => (s, a.detTransitions s))) = vis.reverse := by
    rw [List.map_map]
    exact List.map_id _
  have hc := explore_closed hv (by simp)
  simp only [List.map_id] at hc
  have hnd := explore_nodup hv (by simp)
  rw [List.map_id] at hnd
  rw [show (DetAut.mk (a.closure a.initials) (vis.reverse.filter fun s => s.any fun q => decide (q ∈ a.finals))
    (vis.reverse.map fun s => (s, a.detTransitions s))).transitions = vis.reverse.map fun s => (s, a.detTransitions s) from rfl, hk]
  refine ⟨rfl, List.nodup_reverse.2 hnd, List.mem_reverse.2 (hc.1 _ (by simp)), ?_, ?_⟩
  · intro e he
    obtain ⟨s, hs, rfl⟩ := List.mem_map.1 he
    refine ⟨rfl, fun t ht => ?_⟩
    obtain ⟨l, hl, h'⟩ := hc.2 s (List.mem_reverse.1 hs)
    cases hl
    exact List.mem_reverse.2 (h' _ (List.mem_map.2 ⟨t, ht, rfl⟩))
  · intro s
    rw [List.mem_filter]
    simp

/-- The transitions of the result. -/
theorem det_step (h : a.determinize n = some d) {s : List Q} {ts : List (CharRange × List Q)} (hs : (s, ts) ∈ d.transitions) :
    ts = a.detTransitions s := ((determinize_spec h).2.2.2.1 _ hs).1

theorem det_mem (h : a.determinize n = some d) {s : List Q} (hs : s ∈ d.transitions.map Prod.fst) :
    (s, a.detTransitions s) ∈ d.transitions := by
  obtain ⟨e, he, rfl⟩ := List.mem_map.1 hs
  rw [← ((determinize_spec h).2.2.2.1 _ he).1]
  exact he

theorem path_declared (h : a.determinize n = some d) {s t : List Q} {w : List Nat} (hs : s ∈ d.transitions.map Prod.fst)
    (hp : d.Path s w t) : t ∈ d.transitions.map Prod.fst := by
  induction hp with
  | nil => exact hs
  | cons h1 h2 _ _ _ ih => exact ih (((determinize_spec h).2.2.2.1 _ h1).2 _ h2)

/-- Paths of the deterministic automaton: the last state is the set of what can be reached in the given one. -/
theorem path_sound (ha : a.WF) (h : a.determinize n = some d) {s t : List Q} {w : List Nat} (hs : a.EpsClosed s)
    (hp : d.Path s w t) : ∀ q, q ∈ t ↔ ∃ p ∈ s, a.Path p w q := by
  induction hp with
  | nil s => exact fun q => ⟨fun hq => ⟨q, hq, .nil _⟩, fun ⟨p, hp, hpq⟩ => hs p hp q hpq⟩
  | @cons s s' t ts r c w h1 h2 h3 h4 _ ih =>
    rw [det_step h h1] at h2
    have hc : r.Mem c := ⟨h3, h4⟩
    intro q
    rw [ih (epsClosed_det ha h2 hc) q]
    obtain ⟨-, hm⟩ := mem_detTransitions ha h2 hc
    constructor
    · rintro ⟨p, hp, hpq⟩
      obtain ⟨x, hx, l, qs, h5, h6, y, hy, h7⟩ := (hm p).1 hp
      obtain ⟨row, h8, h9⟩ := (mem_row ha).1 h5
      exact ⟨x, hx, .char h8 h9 h6 hy (h7.append hpq)⟩
    · rintro ⟨p, hp, hpq⟩
      obtain ⟨p', row, label, qs, x, h5, h6, h7, h8, h9, h10⟩ := path_cons hpq
      exact ⟨x, (hm x).2 ⟨p', hs p hp p' h5, label, qs, (mem_row ha).2 ⟨row, h6, h7⟩, h8, x, h9, .nil _⟩, h10⟩

theorem path_complete (ha : a.WF) (h : a.determinize n = some d) {s : List Q} {w : List Nat} (hs : a.EpsClosed s)
    (hsd : s ∈ d.transitions.map Prod.fst) {p q : Q} (hp : p ∈ s) (hpq : a.Path p w q) : ∃ t, d.Path s w t := by
  induction w generalizing s p with
  | nil => exact ⟨s, .nil _⟩
  | cons c w ih =>
    obtain ⟨p', row, label, qs, x, h5, h6, h7, h8, h9, h10⟩ := path_cons hpq
    have hp' : p' ∈ s := hs p hp p' h5
    have hrow := (mem_row ha).2 ⟨row, h6, h7⟩
    obtain ⟨r, s', hr, hc⟩ := exists_detTransitions ha hp' ⟨label, qs, hrow, h8⟩
    have hx : x ∈ s' := ((mem_detTransitions ha hr hc).2 x).2 ⟨p', hp', label, qs, hrow, h8, x, h9, .nil _⟩
    have hm := det_mem h hsd
    obtain ⟨t, ht⟩ := ih (epsClosed_det ha hr hc) (((determinize_spec h).2.2.2.1 _ hm).2 _ hr) hx h10
    exact ⟨t, .cons hm hr hc.1 hc.2 ht⟩

theorem determinize_accepts (ha : a.WF) (h : a.determinize n = some d) (w : List Nat) : d.Accepts w ↔ a.Accepts w := by
  obtain ⟨hi, -, hid, -, hf⟩ := determinize_spec h
  have hcl : a.EpsClosed d.initial := by rw [hi]; exact epsClosed_closure ha _
  constructor
  · rintro ⟨s, hs, hp⟩
    obtain ⟨-, q, hq, hqf⟩ := (hf s).1 hs
    obtain ⟨p, hp', hpq⟩ := (path_sound ha h hcl hp q).1 hq
    rw [hi, mem_closure ha] at hp'
    obtain ⟨i, hii, hip⟩ := hp'
    exact ⟨i, hii, q, hqf, hip.append hpq⟩
  · rintro ⟨i, hii, q, hqf, hp⟩
    have hin : i ∈ d.initial := by rw [hi, mem_closure ha]; exact ⟨i, hii, .nil _⟩
    obtain ⟨t, ht⟩ := path_complete ha h hcl hid hin hp
    exact ⟨t, (hf t).2 ⟨path_declared h hid ht, q, (path_sound ha h hcl ht q).2 ⟨i, hin, hp⟩, hqf⟩, ht⟩

theorem determinize_deterministic (ha : a.WF) (h : a.determinize n = some d) : d.Deterministic := by
  obtain ⟨-, h1, -, h2, -⟩ := determinize_spec h
  refine ⟨h1, fun e he t ht t' ht' c hc hc' => ?_⟩
  rw [(h2 e he).1] at ht ht'
  obtain ⟨hw, -, -⟩ := table_detTransitions ha e.1
  have hdis : ∀ m : RangeMap (List Q), m.WF → ∀ t ∈ m, ∀ t' ∈ m, t.1.Mem c → t'.1.Mem c → t = t' := by
    intro m hm
    induction m with
    | nil => simp
    | cons x m ih =>
      obtain ⟨r, v⟩ := x
      obtain ⟨-, h2, h3⟩ := hm
      intro t ht t' ht' hc hc'
      rcases List.mem_cons.1 ht with rfl | ht <;> rcases List.mem_cons.1 ht' with rfl | ht'
      · rfl
      · have := h2 _ ht'; simp only [CharRange.Mem] at hc hc'; omega
      · have := h2 _ ht; simp only [CharRange.Mem] at hc hc'; omega
      · exact ih h3 t ht t' ht' hc hc'
  exact hdis _ hw t ht t' ht' hc hc'

theorem detTransitions_subset (ha : a.WF) {states s : List Q} {r : CharRange} (h : (r, s) ∈ a.detTransitions states) :
    s.Pairwise (· < ·) ∧ ∀ t ∈ s, t ∈ a.targets := by
  obtain ⟨h1, h2, h3⟩ := table_detTransitions ha states
  have hne : r.lo ≤ r.hi := by
    have : ∀ m : RangeMap (List Q), m.WF → ∀ e ∈ m, e.1.lo ≤ e.1.hi := by
      intro m hm
      induction m with
      | nil => simp
      | cons x m ih =>
        obtain ⟨r, v⟩ := x
        rw [List.forall_mem_cons]
        exact ⟨hm.1, ih hm.2.2⟩
    exact this _ h1 _ h
  obtain ⟨hs, hm⟩ := mem_detTransitions ha h (c := r.lo) ⟨Nat.le_refl _, hne⟩
  refine ⟨hs, fun t ht => ?_⟩
  obtain ⟨q, -, l, qs, h5, -, x, hx, hp⟩ := (hm t).1 ht
  have hx' : x ∈ a.targets := mem_targets_of_row h5 x hx
  clear hx hm ht h5
  generalize hw : ([] : List Nat) = w at hp
  induction hp with
  | nil => exact hx'
  | epsilon h1 h2 h3 _ ih => exact ih (mem_targets_of_row ((mem_row ha).2 ⟨_, h1, h2⟩) _ h3) hw
  | char => cases hw

/-- Determinization ends. -/
theorem determinize_total (ha : a.WF) : ∃ N, ∀ n, N ≤ n → ∃ d, a.determinize n = some d := by
  let all := OSet.ofList (a.closure a.initials ++ a.targets)
  let U := all.sublists
  have hU : ∀ s : List Q, s.Pairwise (· < ·) → (∀ q ∈ s, q ∈ a.closure a.initials ++ a.targets) → s ∈ U := by
    intro s hs hsub
    have : s = all.filter (fun q => decide (q ∈ s)) := by
      refine OSet.ext hs (OSet.sorted_ofList.filter _) fun q => ?_
      rw [List.mem_filter]
      constructor
      · exact fun hq => ⟨OSet.mem_ofList.2 (hsub q hq), by simpa using hq⟩
      · exact fun hq => by simpa using hq.2
    rw [List.mem_sublists, this]
    exact List.filter_sublist
  refine ⟨[a.closure a.initials].length + exploreWeight id (fun s => some ((a.detTransitions s).map Prod.snd)) U [],
    fun n hn => ?_⟩
  obtain ⟨out, ho⟩ := explore_total (key := (id : List Q → List Q))
    (succ := fun s => some ((a.detTransitions s).map Prod.snd)) (U := U) (by
      intro s _
      refine ⟨_, rfl, fun t ht => ?_⟩
      obtain ⟨e, he, rfl⟩ := List.mem_map.1 ht
      obtain ⟨h1, h2⟩ := detTransitions_subset ha (show (e.1, e.2) ∈ _ from he)
      exact hU _ h1 fun q hq => List.mem_append_right _ (h2 q hq)) n [] [a.closure a.initials] (by
      intro s hs
      rw [List.mem_singleton] at hs
      subst hs
      exact hU _ (sorted_closure _ _) fun q hq => List.mem_append_left _ hq) hn
  exact ⟨_, by unfold determinize; dsimp only; rw [ho]; rfl⟩

end Nfa

end Verif
