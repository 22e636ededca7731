import Verif.DetPartition
import Verif.NfaDet
import Verif.NfaProduct
import Verif.NfaBuild
import Verif.DetProduct
import Verif.DetMinimize
import Verif.DetCompress
import Mathlib.Data.Nat.Pairing

/-!
# Properties of automata (C28, C29, C40, C41, C42)

The languages are those of `Verif/AutomatonSpec.lean` and `Verif/NfaSpec.lean`. Each loop has a fuel; the theorems hold
whatever the fuel for which the loop ends, and each comes with a theorem saying that it ends.
-/

set_option linter.unusedSectionVars false

namespace Verif.Props

section Nfa

open Verif.Nfa

variable {Q : Type _} [LinearOrder Q]

/-- The operations with which automata are built give automata that meet the hypothesis `WF`. -/
theorem C28_built_automata_wf :
    (Nfa.new : Nfa Q).WF ∧ ∀ a : Nfa Q, a.WF → ∀ q q', (a.declareState q).WF ∧ (a.addInitial q).WF ∧ (a.addFinal q).WF ∧
      (a.add q none q').WF ∧ ∀ label : RangeSet, label.WF → label.Valid → (a.add q (some label) q').WF :=
  ⟨wf_new, fun _ ha q q' => ⟨wf_declare ha q, wf_addInitial ha q, wf_addFinal ha q, wf_add ha q (by simp) q',
    fun _ h1 h2 => wf_add ha q (by rintro l ⟨⟩; exact ⟨h1, h2⟩) q'⟩⟩

/-- **C28.** Determinization terminates; the result accepts the same strings, and is deterministic. -/
theorem C28_determinize (a : Nfa Q) (ha : a.WF) :
    (∃ N, ∀ n, N ≤ n → ∃ d, a.determinize n = some d) ∧
    ∀ n d, a.determinize n = some d → d.Deterministic ∧ ∀ w, d.Accepts w ↔ a.Accepts w :=
  ⟨determinize_total ha, fun _ _ h => ⟨determinize_deterministic ha h, determinize_accepts ha h⟩⟩

variable {R S : Type _} [LinearOrder R] [LinearOrder S]

/-- **C29** (non-deterministic automata, partial). The product terminates, accepts only strings that are accepted by both
automata, and all of them when there is no ε-transition. The full statement would hold without this last condition: it is
refuted by `C29_product_epsilon_counterexample`. -/
theorem C29_product_partial (a : Nfa Q) (b : Nfa R) (f : Q → R → S) (ha : a.WF) (hb : b.WF)
    (hf : ∀ x x' y y', f x y = f x' y' → x = x' ∧ y = y') :
    (∃ N, ∀ n, N ≤ n → ∃ c, a.product n b f = some c) ∧
    ∀ n c, a.product n b f = some c →
      (∀ w, c.Accepts w → a.Accepts w ∧ b.Accepts w) ∧
      (a.EpsFree → b.EpsFree → ∀ w, a.Accepts w ∧ b.Accepts w → c.Accepts w) := by
  refine ⟨product_total, fun n c h => ?_⟩
  obtain ⟨vis, hs⟩ := product_spec hf h
  refine ⟨fun w => ?_, fun hae hbe w => ?_⟩
  · rintro ⟨i, hi, t, ht, hp⟩
    obtain ⟨x, hx, y, hy, rfl⟩ := (hs.initials i).1 hi
    obtain ⟨x', y', rfl, h1, h2⟩ := product_path_sound ha hb hf hs hp x y rfl
    obtain ⟨p, -, h3, h4, h5⟩ := (hs.finals _).1 ht
    obtain ⟨rfl, rfl⟩ := hf _ _ _ _ h5
    exact ⟨⟨x, hx, _, h3, h1⟩, ⟨y, hy, _, h4, h2⟩⟩
  · rintro ⟨⟨x, hx, x', hx', h1⟩, ⟨y, hy, y', hy', h2⟩⟩
    obtain ⟨h3, h4⟩ := product_path_complete ha hb hae hbe hs h1 h2 (hs.start x hx y hy)
    exact ⟨f x y, (hs.initials _).2 ⟨x, hx, y, hy, rfl⟩, f x' y', (hs.finals _).2 ⟨_, h4, hx', hy', rfl⟩, h3⟩

/-- `x*|xy`, with ε-transitions: 0 →ε 1, 1 →x 1, 0 →ε 2, 2 →x 3, 3 →y 4, the final states are 1 and 4. -/
def exampleNfa : Nfa Nat :=
  (((((((((Nfa.new.addInitial 0).add 0 none 1).add 1 (some [⟨120, 120⟩]) 1).add 0 none 2).add 2 (some [⟨120, 120⟩]) 3).add 3
    (some [⟨121, 121⟩]) 4).addFinal 1).addFinal 4))

private theorem wf_char (c : Nat) (h : c ≤ 0x10f7ff) : RangeSet.WF [⟨c, c⟩] ∧ RangeSet.Valid [⟨c, c⟩] := by
  refine ⟨?_, ?_⟩
  · simp [RangeSet.WF]
  · simpa [RangeSet.Valid, lastChar] using h

theorem exampleNfa_wf : exampleNfa.WF := by
  have h := (C28_built_automata_wf (Q := Nat)).2
  have hx := wf_char 120 (by decide)
  have hy := wf_char 121 (by decide)
  have h0 := (h _ (C28_built_automata_wf (Q := Nat)).1 0 0).2.1
  have h1 := (h _ h0 0 1).2.2.2.1
  have h2 := (h _ h1 1 1).2.2.2.2 _ hx.1 hx.2
  have h3 := (h _ h2 0 2).2.2.2.1
  have h4 := (h _ h3 2 3).2.2.2.2 _ hx.1 hx.2
  have h5 := (h _ h4 3 4).2.2.2.2 _ hy.1 hy.2
  exact (h _ (h _ h5 1 0).2.2.1 4 0).2.2.1

/-- The example meets the hypotheses of `C28_determinize`: its determinization has four states. -/
example : exampleNfa.WF ∧ exampleNfa.determinize 20 = some
    { initial := [0, 1, 2], finals := [[0, 1, 2], [1, 3], [4], [1]],
      transitions := [([0, 1, 2], [(⟨120, 120⟩, [1, 3])]), ([1, 3], [(⟨120, 120⟩, [1]), (⟨121, 121⟩, [4])]), ([4], []),
        ([1], [(⟨120, 120⟩, [1])])] } := ⟨exampleNfa_wf, by decide +kernel⟩

/-- 0 →ε 1 →x 2. -/
def exampleLate : Nfa Nat := (((Nfa.new.addInitial 0).add 0 none 1).add 1 (some [⟨120, 120⟩]) 2).addFinal 2

/-- 0 →x 1. -/
def exampleEarly : Nfa Nat := ((Nfa.new.addInitial 0).add 0 (some [⟨120, 120⟩]) 1).addFinal 1

/-- **C29** is false of the code for non-deterministic automata with ε-transitions: an ε-transition of one automaton is
followed only together with an ε-transition of the other. Here both automata accept `x`, and their product accepts no
string. -/
theorem C29_product_epsilon_counterexample :
    exampleLate.WF ∧ exampleEarly.WF ∧ exampleLate.Accepts [120] ∧ exampleEarly.Accepts [120] ∧
    ∃ c, exampleLate.product 10 exampleEarly Nat.pair = some c ∧ ∀ w, ¬ c.Accepts w := by
  have h := (C28_built_automata_wf (Q := Nat)).2
  have hx := wf_char 120 (by decide)
  have h0 := (h _ (C28_built_automata_wf (Q := Nat)).1 0 0).2.1
  refine ⟨?_, ?_, ?_, ?_, ?_⟩
  · exact (h _ ((h _ ((h _ h0 0 1).2.2.2.1) 1 2).2.2.2.2 _ hx.1 hx.2) 2 0).2.2.1
  · exact (h _ ((h _ h0 0 1).2.2.2.2 _ hx.1 hx.2) 1 0).2.2.1
  · refine ⟨0, by decide +kernel, 2, by decide +kernel, .epsilon (q' := 1) (row := [(none, [1])]) (qs := [1]) ?_ ?_ ?_
      (.char (q' := 2) (row := [(some [⟨120, 120⟩], [2])]) (label := [⟨120, 120⟩]) (qs := [2]) ?_ ?_ ?_ ?_ (.nil _))⟩ <;>
      first | decide +kernel | simp [RangeSet.Mem, CharRange.Mem]
  · refine ⟨0, by decide +kernel, 1, by decide +kernel, .char (q' := 1) (row := [(some [⟨120, 120⟩], [1])])
      (label := [⟨120, 120⟩]) (qs := [1]) ?_ ?_ ?_ ?_ (.nil _)⟩ <;>
      first | decide +kernel | simp [RangeSet.Mem, CharRange.Mem]
  · refine ⟨⟨[(0, [])], [0], []⟩, by decide +kernel, ?_⟩
    rintro w ⟨i, -, t, ht, -⟩
    cases ht

/-- `exampleEarly` meets the hypotheses of `C29_product_partial`, including the last ones. -/
example : exampleEarly.EpsFree ∧ (∀ x x' y y', Nat.pair x y = Nat.pair x' y' → x = x' ∧ y = y') ∧
    (exampleEarly.product 10 exampleEarly Nat.pair).map (·.finals) = some [Nat.pair 1 1] := by
  refine ⟨?_, fun _ _ _ _ h => Nat.pair_eq_pair.1 h, by decide +kernel⟩
  unfold Nfa.EpsFree
  decide +kernel

end Nfa

section Det

open Verif.DetAut

variable {Q R S : Type _} [DecidableEq Q] [DecidableEq R] [DecidableEq S]

/-- **C29** (deterministic automata). The product terminates and accepts the strings accepted by both automata. The
function `g` must give the intersection of ranges, and `f` must be injective: both are arguments of the code. -/
theorem C29_det_product (a : DetAut Q CharRange) (b : DetAut R CharRange) (f : Q → R → S)
    (g : CharRange → CharRange → Option CharRange) (hf : ∀ x x' y y', f x y = f x' y' → x = x' ∧ y = y')
    (hg : Intersects g) (ha : TableWF a.transitions) (hb : TableWF b.transitions) (had : a.Deterministic)
    (hbd : b.Deterministic) :
    (∃ N, ∀ n, N ≤ n → ∃ c, a.product n b f g = some c) ∧
    ∀ n c, a.product n b f g = some c → ∀ w, c.Accepts w ↔ a.Accepts w ∧ b.Accepts w :=
  ⟨product_total a b f g, fun _ _ h => product_accepts hf hg ha hb had hbd h⟩

/-- An intersection of ranges. -/
def rangeInter (r s : CharRange) : Option CharRange :=
  if max r.lo s.lo ≤ min r.hi s.hi then some ⟨max r.lo s.lo, min r.hi s.hi⟩ else none

theorem intersects_rangeInter : Intersects rangeInter := by
  refine ⟨fun r s t h => ?_, fun r s h c => ?_⟩
  · unfold rangeInter at h
    split at h
    · rename_i hle
      cases h
      simp only [CharRange.Mem]
      exact ⟨fun c => by omega, max r.lo s.lo, by omega, by omega⟩
    · cases h
  · unfold rangeInter at h
    split at h
    · cases h
    · simp only [CharRange.Mem]
      omega

/-- The strings over `a-z` that end with `z` (0 →[a-y] 0, 0 →z 1, 1 →[a-y] 0, 1 →z 1). -/
def exampleDet : DetAut Nat CharRange :=
  { initial := 0, finals := [1]
    transitions := [(0, [(⟨97, 121⟩, 0), (⟨122, 122⟩, 1)]), (1, [(⟨97, 121⟩, 0), (⟨122, 122⟩, 1)])] }

/-- The strings of length two over `m-z`, and an unreachable state. -/
def exampleDet₂ : DetAut Nat CharRange :=
  { initial := 0, finals := [2], transitions := [(0, [(⟨109, 122⟩, 1)]), (1, [(⟨109, 122⟩, 2)]), (3, [(⟨97, 97⟩, 1)])] }

theorem exampleDet_deterministic : exampleDet.Deterministic ∧ exampleDet₂.Deterministic := by
  constructor <;>
  · refine ⟨by decide +kernel, ?_⟩
    intro e he t ht t' ht' c
    simp only [exampleDet, exampleDet₂, List.mem_cons, List.not_mem_nil, or_false] at he
    rcases he with rfl | rfl | rfl <;> simp only [List.mem_cons, List.not_mem_nil, or_false] at ht ht' <;>
      (try rcases ht with rfl | rfl) <;> (try rcases ht' with rfl | rfl) <;> simp [CharRange.Mem] <;> omega

/-- The two automata meet the hypotheses of `C29_det_product`. -/
example : TableWF exampleDet.transitions ∧ TableWF exampleDet₂.transitions ∧ Intersects rangeInter ∧
    (exampleDet.product 20 exampleDet₂ Nat.pair rangeInter).map (fun c => (c.finals, c.transitions.length)) =
      some ([Nat.pair 1 2], 5) := by
  refine ⟨?_, ?_, intersects_rangeInter, by decide +kernel⟩ <;> (unfold TableWF; decide +kernel)

/-! ## Renaming, minimization, compression -/

variable {P : Type _} [DecidableEq P]

/-- **C40** (`map`). Renaming the states by an injective function preserves the language. -/
theorem C40_map_injective (a : DetAut Q CharRange) (ha : TableWF a.transitions) (f : Q → P)
    (hf : ∀ q q', f q = f q' → q = q') (w : List Nat) :
    (a.map (fun (_ : Unit) q => (f q, ())) () id).Accepts w ↔ a.Accepts w :=
  map_accepts a ha () (map_injective a f hf) w

/-- **C40** (`map`). Numbering the states in the order in which they are met (as `RegExp::build` does) preserves the
language. -/
theorem C40_map_counter (a : DetAut Q CharRange) (ha : TableWF a.transitions) (w : List Nat) :
    (a.map (fun (n : Nat) _ => (n, n + 1)) 0 id).Accepts w ↔ a.Accepts w :=
  map_accepts a ha 0 (map_counter a) w

/-- The example has several states, transitions and a final state, and is renamed with the same shape. -/
example : TableWF exampleDet.transitions ∧ (exampleDet.map (fun (_ : Unit) q => (q + 10, ())) () id) =
    { initial := 10, finals := [11]
      transitions := [(10, [(⟨97, 121⟩, 10), (⟨122, 122⟩, 11)]), (11, [(⟨97, 121⟩, 10), (⟨122, 122⟩, 11)])] } := by
  refine ⟨?_, by decide +kernel⟩
  unfold TableWF
  decide +kernel

/-- **C40** is false of the code for `try_map`: the final states are not copied, so that even the identity gives an
automaton that accepts nothing. -/
theorem C40_try_map_counterexample :
    exampleDet.Accepts [122] ∧ ∃ c, exampleDet.tryMap (E := Unit) Except.ok Except.ok = .ok c ∧ ∀ w, ¬ c.Accepts w := by
  refine ⟨⟨1, by decide +kernel, .cons (q' := 1) (r := ⟨122, 122⟩) (ts := [(⟨97, 121⟩, 0), (⟨122, 122⟩, 1)]) (by decide +kernel)
    (by decide +kernel) (Nat.le_refl _) (Nat.le_refl _) (.nil _)⟩, { exampleDet with finals := [] }, by rfl, ?_⟩
  rintro w ⟨q, hq, -⟩
  cases hq

/-- **C40** (`minimize`, partial). On a partition into disjoint blocks that are homogeneous in finality, `minimize`
terminates without panic; when the blocks that contain a final state are then marked as final, the result accepts the same
strings. The full statement would not need the last step: it is refuted by `C40_minimize_counterexample`. -/
theorem C40_minimize_partial (a : DetAut Q CharRange) (ha : TableWF a.transitions) (partition : List (List Q))
    (hnodup : partition.Nodup) (hdisjoint : ∀ B ∈ partition, ∀ B' ∈ partition, ∀ q, q ∈ B → q ∈ B' → B = B')
    (hinitial : ∃ B ∈ partition, a.initial ∈ B)
    (hcover : ∀ q q', a.Follows q q' → (∃ B ∈ partition, q ∈ B) ∧ ∃ B ∈ partition, q' ∈ B)
    (hfinal : ∀ B ∈ partition, ∀ x ∈ B, ∀ y ∈ B, x ∈ a.finals ↔ y ∈ a.finals) :
    (∃ N, ∀ n, N ≤ n → ∃ m, a.minimize n partition = .ok m) ∧
    ∀ n m, a.minimize n partition = .ok m → ∀ fin : List (List Q),
      (∀ w B, m.Path m.initial w B → (B ∈ fin ↔ ∃ q ∈ B, q ∈ a.finals)) →
      ∀ w, ({ m with finals := fin } : DetAut (List Q) CharRange).Accepts w ↔ a.Accepts w := by
  have hc : a.Covers partition := by
    refine ⟨hinitial, fun t ht => ?_⟩
    obtain ⟨ts, h1, h2⟩ := mem_triples.1 (show (t.1, t.2.1, t.2.2) ∈ _ from ht)
    exact hcover _ _ ⟨ts, t.2.1, h1, h2⟩
  exact ⟨⟨_, fun n hn => minimize_total ha hdisjoint hnodup hc hn⟩,
    fun n m h fin hf w => minimize_accepts ha hdisjoint hnodup hc hfinal h hf w⟩

/-- An automaton for the nonempty strings of `x` with two equivalent states. -/
def exampleRedundant : DetAut Nat CharRange :=
  { initial := 0, finals := [1, 2]
    transitions := [(0, [(⟨120, 120⟩, 1)]), (1, [(⟨120, 120⟩, 2)]), (2, [(⟨120, 120⟩, 1)])] }

/-- The example is minimized to two states from the partition in final and non final states. -/
example : TableWF exampleRedundant.transitions ∧ [[0], [1, 2]].Nodup ∧
    exampleRedundant.minimize 10 [[0], [1, 2]] = .ok
      { initial := [0], finals := [], transitions := [([0], [(⟨120, 120⟩, [1, 2])]), ([1, 2], [(⟨120, 120⟩, [1, 2])])] } := by
  refine ⟨?_, by decide, by decide +kernel⟩
  unfold TableWF
  decide +kernel

/-- A chain of four states: the blocks of non final states are split. -/
example : ({ initial := 0, finals := [3], transitions := [(0, [(⟨120, 120⟩, 1)]), (1, [(⟨120, 120⟩, 2)]), (2, [(⟨120, 120⟩, 3)])] } :
    DetAut Nat CharRange).minimize 10 [[0, 1, 2], [3]] = .ok
      { initial := [0], finals := [],
        transitions := [([0], [(⟨120, 120⟩, [1])]), ([1], [(⟨120, 120⟩, [2])]), ([2], [(⟨120, 120⟩, [3])])] } := by
  decide +kernel

/-- **C40** is false of the code for `minimize`: the result has no final state. -/
theorem C40_minimize_counterexample :
    exampleRedundant.Accepts [120] ∧ ∃ m, exampleRedundant.minimize 10 [[0], [1, 2]] = .ok m ∧ ∀ w, ¬ m.Accepts w := by
  refine ⟨⟨1, by decide +kernel, .cons (q' := 1) (r := ⟨120, 120⟩) (ts := [(⟨120, 120⟩, 1)]) (by decide +kernel)
    (by decide +kernel) (Nat.le_refl _) (Nat.le_refl _) (.nil _)⟩,
    { initial := [0], finals := [], transitions := [([0], [(⟨120, 120⟩, [1, 2])]), ([1, 2], [(⟨120, 120⟩, [1, 2])])] },
    by decide +kernel, ?_⟩
  rintro w ⟨q, hq, -⟩
  cases hq

/-- **C40** is false of the code for `compress`: only the transitions of the initial state are compressed, those of the
other states that remain are dropped. In the result, labels are strings of ranges; no transition leaves the state 1,
although it has two transitions, to the final states 2 and 3. -/
theorem C40_compress_counterexample :
    ({ initial := 0, finals := [2, 3],
       transitions := [(0, [(⟨97, 97⟩, 1)]), (1, [(⟨98, 98⟩, 2), (⟨99, 99⟩, 3)])] } : DetAut Nat CharRange).compress 10
      ([] : List CharRange) (fun l r => l ++ [r]) =
    some { initial := 0, finals := [2, 3], transitions := [(0, [([⟨97, 97⟩], 1)])] } := by
  decide +kernel

/-- **C40** (`compress`, partial). With strings of labels as labels, if the compression ends, the paths of the result to the final
states are paths of the automaton, once their labels are concatenated. The converse holds if only the initial state has several
transitions. -/
theorem C40_compress_partial {L : Type _} [DecidableEq L] (a : DetAut Q L) (n : Nat) (b : DetAut Q (List L))
    (h : a.compress n [] (fun m l => m ++ [l]) = some b) :
    b.initial = a.initial ∧ (∀ q, b.isFinal q = a.isFinal q) ∧
    (∀ ms q, LabelPath b b.initial ms q → LabelPath a a.initial ms.flatten q) ∧
    ((∀ e ∈ a.transitions, (e.2.map Prod.fst).Nodup) → (∀ q, q ≠ a.initial → (a.row q).length ≤ 1) →
      ∀ ls q, a.isFinal q = true → LabelPath a a.initial ls q → ∃ ms, ms.flatten = ls ∧ LabelPath b b.initial ms q) := by
  have h' : a.compress n [] snoc = some b := h
  obtain ⟨row, -, hb⟩ := compress_eq h'
  have hi : b.initial = a.initial := by rw [hb]
  refine ⟨hi, fun q => by rw [hb]; rfl, fun ms q hp => ?_, fun hr hs ls q hq hp => ?_⟩
  · rw [hi] at hp
    exact compress_sound h' hp
  · rw [hi]
    refine compress_complete h' ?_ hs hq _ ls (Nat.le_refl _) hp
    unfold DetAut.row
    cases hg : AMap.get a.transitions a.initial with
    | none => simp
    | some r => exact hr _ (AMap.mem_of_get hg)

/-- The strings `a`, `ab` and `cd`. -/
example :
    let a : DetAut Nat Char := ⟨0, [1, 2, 4], [(0, [('a', 1), ('c', 3)]), (1, [('b', 2)]), (3, [('d', 4)])]⟩
    a.compress 10 [] (fun m l => m ++ [l]) = some ⟨0, [1, 2, 4], [(0, [(['a'], 1), (['a', 'b'], 2), (['c', 'd'], 4)])]⟩ ∧
    (∀ e ∈ a.transitions, (e.2.map Prod.fst).Nodup) ∧ ∀ q, q ≠ a.initial → (a.row q).length ≤ 1 := by
  refine ⟨by decide +kernel, by decide +kernel, fun q hq => ?_⟩
  by_cases h1 : q = 1
  · subst h1; decide +kernel
  · by_cases h3 : q = 3
    · subst h3; decide +kernel
    · have h0 : ¬ 0 = q := fun h => hq h.symm
      have h1 : ¬ 1 = q := fun h => h1 h.symm
      have h3 : ¬ 3 = q := fun h => h3 h.symm
      simp [DetAut.row, AMap.get, h0, h1, h3]

/-- `compress` does not terminate on a cycle of states that have one transition. -/
theorem C40_compress_diverges (n : Nat) :
    ({ initial := 0, finals := [0], transitions := [(0, [(⟨97, 97⟩, 0)])] } : DetAut Nat CharRange).compress n
      ([] : List CharRange) (fun l r => l ++ [r]) = none := by
  have h : ∀ n l out, ({ initial := 0, finals := [0], transitions := [(0, [(⟨97, 97⟩, 0)])] } : DetAut Nat CharRange).compressFrom
      (fun l r => l ++ [r]) n l 0 out = none := by
    intro n
    induction n with
    | zero => exact fun _ _ => rfl
    | succ n ih => exact fun l out => ih _ _
  unfold compress
  rw [show ({ initial := 0, finals := [0], transitions := [(0, [(⟨97, 97⟩, 0)])] } : DetAut Nat CharRange).row 0 =
    [(⟨97, 97⟩, 0)] from rfl, List.foldlM_cons, h]
  rfl

/-! ## Serialization -/

/-- **C41.** Reading the serialized transitions gives an automaton that accepts the same strings. -/
theorem C41_serialize (a : DetAut Q CharRange) (ha : TableWF a.transitions) (w : List Nat) :
    ({ a with transitions := deserialize (serialize a.transitions) } : DetAut Q CharRange).Accepts w ↔ a.Accepts w :=
  accepts_congr (a := { a with transitions := deserialize (serialize a.transitions) }) (b := a) rfl (fun _ => Iff.rfl)
    (deserialize_serialize ha).2 w

/-- The example has states with several transitions. A state without transition is lost by the round trip. -/
example : serialize exampleDet.transitions = [(0, ⟨97, 121⟩, 0), (0, ⟨122, 122⟩, 1), (1, ⟨97, 121⟩, 0), (1, ⟨122, 122⟩, 1)] ∧
    deserialize (serialize exampleDet.transitions) = exampleDet.transitions ∧
    deserialize (serialize (exampleDet.transitions ++ [(2, [])])) = exampleDet.transitions := by
  decide +kernel

/-! ## Reachable states -/

variable {L : Type _} [DecidableEq L]

/-- **C42.** The iterator over reachable states terminates, and yields each reachable state once and nothing else. -/
theorem C42_reachable (a : DetAut Q L) (ha : TableWF a.transitions) (q : Q) :
    (∃ N, ∀ n, N ≤ n → ∃ out, a.reachableStates n q = some out) ∧
    ∀ n out, a.reachableStates n q = some out → out.Nodup ∧ ∀ s, s ∈ out ↔ Relation.ReflTransGen a.Follows q s :=
  ⟨reachableStates_total a q, fun _ _ h => reachableStates_spec ha h⟩

/-- **C42** (`select_states`). The selection terminates, and gives the reachable states for which `f` is true. -/
theorem C42_select (a : DetAut Q L) (ha : TableWF a.transitions) (f : Q → Bool) :
    (∃ N, ∀ n, N ≤ n → ∃ out, a.selectStates n f = some out) ∧
    ∀ n out, a.selectStates n f = some out →
      out.Nodup ∧ ∀ s, s ∈ out ↔ Relation.ReflTransGen a.Follows a.initial s ∧ f s = true :=
  ⟨selectStates_total a f, fun _ _ h => selectStates_spec ha h⟩

/-- The second example has a state that is not reachable. -/
example : TableWF exampleDet₂.transitions ∧ exampleDet₂.reachableStates 10 0 = some [0, 1, 2] ∧
    exampleDet₂.selectStates 10 (fun q => q != 1) = some [2, 0] := by
  refine ⟨?_, by decide +kernel, by decide +kernel⟩
  unfold TableWF
  decide +kernel

/-- **C42** (`try_partition`). Partitioning terminates: it gives the reachable states, each in the block of its value by `f`, or the
error of `f` on a reachable state. -/
theorem C42_partition {P E : Type _} [DecidableEq P] (a : DetAut Q L) (ha : TableWF a.transitions) (f : Q → Except E P) :
    (∃ N, ∀ n, N ≤ n → (∃ out, a.tryPartition n f = .ok out) ∨ ∃ e, a.tryPartition n f = .err e) ∧
    (∀ n out, a.tryPartition n f = .ok out →
      (out.map Prod.fst).Nodup ∧
      (∀ p B, (p, B) ∈ out → B ≠ [] ∧ B.Nodup ∧ ∀ s, s ∈ B ↔ Relation.ReflTransGen a.Follows a.initial s ∧ f s = .ok p) ∧
      ∀ s, Relation.ReflTransGen a.Follows a.initial s → ∃ p B, (p, B) ∈ out ∧ s ∈ B) ∧
    ∀ n e, a.tryPartition n f = .err e → ∃ s, Relation.ReflTransGen a.Follows a.initial s ∧ f s = .error e := by
  refine ⟨?_, fun n out h => ?_, fun n e h => ?_⟩
  · obtain ⟨N, hN⟩ := selectStates_total a fun _ => true
    refine ⟨N, fun n hn => ?_⟩
    obtain ⟨out, ho⟩ := hN n hn
    obtain ⟨vis, hv, -⟩ := Option.map_eq_some_iff.1 ho
    have hm := tryPartitionFrom_follows a f n a.initial [] [] (.nil f)
    unfold tryPartition
    cases hr : a.tryPartitionFrom f n a.initial ([], []) with
    | ok s => exact .inl ⟨_, rfl⟩
    | err e => exact .inr ⟨e, rfl⟩
    | panic => rw [hr] at hm; exact hm.elim
    | fuel => rw [hr] at hm; rw [show a.visitFrom n a.initial [] = none from hm] at hv; cases hv
  · unfold tryPartition at h
    obtain ⟨⟨vis, part⟩, hr, h⟩ := Out.bind_eq_ok.1 h
    cases h
    have hm := tryPartitionFrom_follows a f n a.initial [] [] (.nil f)
    rw [hr] at hm
    obtain ⟨hv, hp⟩ := hm
    have hv := visitFrom_spec ha hv
    refine ⟨hp.unique, fun p B hB => ?_, fun s hs => hp.covers s ((hv s).2 hs)⟩
    obtain ⟨h1, h2, h3⟩ := hp.blocks p B hB
    exact ⟨h1, h2, fun s => by rw [h3, hv]⟩
  · unfold tryPartition at h
    cases hr : a.tryPartitionFrom f n a.initial ([], []) with
    | ok s => rw [hr] at h; cases h
    | err e' =>
      rw [hr] at h
      cases h
      obtain ⟨s, hs, he⟩ := tryPartitionFrom_err a f n _ _ _ hr
      exact ⟨s, (reach_row ha).1 hs, he⟩
    | panic => rw [hr] at h; cases h
    | fuel => rw [hr] at h; cases h

/-- Two blocks of reachable states; the state 1 is refused. -/
example : exampleDet₂.partition 10 (fun q => q != 1) = .ok [(true, [0, 2]), (false, [1])] ∧
    exampleDet₂.tryPartition 10 (fun q => if q = 1 then .error "one" else .ok q) = .err "one" := by decide +kernel

/-- **C40** (`minimize` of the partition by finality, partial). If every state that has transitions is reachable, minimizing from the
partition in final and other states succeeds and, once the final blocks are marked, preserves the language. -/
theorem C40_minimize_by_finality_partial (a : DetAut Q CharRange) (ha : TableWF a.transitions)
    (hreach : ∀ q q', a.Follows q q' → Relation.ReflTransGen a.Follows a.initial q) :
    ∃ N, ∀ n, N ≤ n → ∃ out, a.partition n (fun q => a.isFinal q) = .ok out ∧
      (∃ M, ∀ k, M ≤ k → ∃ m, a.minimize k (out.map Prod.snd) = .ok m) ∧
      ∀ k m, a.minimize k (out.map Prod.snd) = .ok m → ∀ fin : List (List Q),
        (∀ w B, m.Path m.initial w B → (B ∈ fin ↔ ∃ q ∈ B, q ∈ a.finals)) →
        ∀ w, ({ m with finals := fin } : DetAut (List Q) CharRange).Accepts w ↔ a.Accepts w := by
  obtain ⟨⟨N, hN⟩, hok, herr⟩ := C42_partition (E := Empty) a ha fun q => .ok (a.isFinal q)
  refine ⟨N, fun n hn => ?_⟩
  rcases hN n hn with ⟨out, ho⟩ | ⟨e, -⟩
  · obtain ⟨hu, hb, hc⟩ := hok n out ho
    refine ⟨out, ho, ?_⟩
    have hfin : ∀ B ∈ out.map Prod.snd, ∀ x ∈ B, ∀ y ∈ B, x ∈ a.finals ↔ y ∈ a.finals := by
      intro B hB x hx y hy
      obtain ⟨⟨p, B⟩, hpB, rfl⟩ := List.mem_map.1 hB
      have h1 := (((hb p B hpB).2.2 x).1 hx).2
      have h2 := (((hb p B hpB).2.2 y).1 hy).2
      have := h1.trans h2.symm
      simpa [isFinal] using this
    have same : ∀ p B p' B', (p, B) ∈ out → (p', B') ∈ out → ∀ q, q ∈ B → q ∈ B' → p = p' := by
      intro p B p' B' h h' q hq hq'
      have h1 := (((hb p B h).2.2 q).1 hq).2
      have h2 := (((hb p' B' h').2.2 q).1 hq').2
      simpa using h1.symm.trans h2
    have keys : ∀ p B B', (p, B) ∈ out → (p, B') ∈ out → B = B' := by
      intro p B B' h h'
      have h1 := AMap.get_of_mem hu h
      rw [AMap.get_of_mem hu h'] at h1
      exact (Option.some.inj h1).symm
    have hnodup : (out.map Prod.snd).Nodup := by
      refine List.Nodup.map_on ?_ (List.Nodup.of_map _ hu)
      rintro ⟨p, B⟩ h ⟨p', B'⟩ h' rfl
      obtain ⟨q, hq⟩ := List.exists_mem_of_ne_nil B (hb p B h).1
      rw [same p B p' B h h' q hq hq]
    have hdisj : ∀ B ∈ out.map Prod.snd, ∀ B' ∈ out.map Prod.snd, ∀ q, q ∈ B → q ∈ B' → B = B' := by
      intro B hB B' hB' q hq hq'
      obtain ⟨⟨p, B⟩, h, rfl⟩ := List.mem_map.1 hB
      obtain ⟨⟨p', B'⟩, h', rfl⟩ := List.mem_map.1 hB'
      obtain rfl := same p B p' B' h h' q hq hq'
      exact keys p B B' h h'
    have cover : ∀ q, Relation.ReflTransGen a.Follows a.initial q → ∃ B ∈ out.map Prod.snd, q ∈ B := by
      intro q hq
      obtain ⟨p, B, h, hqB⟩ := hc q hq
      exact ⟨B, List.mem_map.2 ⟨_, h, rfl⟩, hqB⟩
    exact C40_minimize_partial a ha _ hnodup hdisj (cover _ .refl)
      (fun q q' h => ⟨cover q (hreach q q' h), cover q' ((hreach q q' h).tail h)⟩) hfin
  · exact e.elim

example : ∀ q q', exampleRedundant.Follows q q' → Relation.ReflTransGen exampleRedundant.Follows exampleRedundant.initial q := by
  have h0 : exampleRedundant.Follows 0 1 := ⟨_, ⟨120, 120⟩, .head _, by simp⟩
  have h1 : exampleRedundant.Follows 1 2 := ⟨_, ⟨120, 120⟩, .tail _ (.head _), by simp⟩
  rintro q q' ⟨ts, l, h, -⟩
  simp only [exampleRedundant, List.mem_cons, Prod.mk.injEq, List.not_mem_nil, or_false] at h
  rcases h with ⟨rfl, -⟩ | ⟨rfl, -⟩ | ⟨rfl, -⟩
  · exact .refl
  · exact .single h0
  · exact (Relation.ReflTransGen.single h0).tail h1

/-- A state that is not reachable but has a transition is in no block: `minimize` panics. -/
theorem C40_minimize_panics :
    let a : DetAut Nat CharRange := { initial := 0, finals := [0], transitions := [(1, [(⟨120, 120⟩, 0)])] }
    a.partition 10 (fun q => a.isFinal q) = .ok [(true, [0])] ∧ a.minimize 10 [[0]] = .panic := by decide +kernel

end Det

end Verif.Props
