import Verif.OneTerm
import Verif.Props.DeErrorCauses

/-! # C11, C94: layouts for which no resource is given two terms

Dehydration may end with the error that different terms were assigned to a resource, although the tree conforms to the layout. This
cannot happen with layouts that give one term to each resource. -/

set_option linter.unusedSectionVars false
set_option linter.unusedSimpArgs false

namespace Verif.Props

open Verif Dehydrate

/-- **C11** (no ambiguity). If the layouts give one term to each resource, then dehydration of any tree, conforming or not, does not report
an ambiguity. -/
theorem C11_no_term_ambiguity (c : DeCtx) (hd : c.reg.DistinctKeys) (hc : c.reg.Closed) (ho : c.reg.OneTerm) (n : Nat) (v : Value) (hv : v.Sorted)
    (ref : Term) (o : DeOptions) : dehydrate c n v ref o ≠ .err .termAmbiguity := by
  intro h
  unfold dehydrate at h
  cases hl : c.reg ref with
  | none => rw [hl] at h; cases h
  | some l =>
    rw [hl] at h
    simp only at h
    have hn := OneTerm.no_conflict c hc ho n hv none ref (l.inputCount.getD (o.inputCount.getD 1))
    have ht := truthful c hd hc n ⟨ref, l.inputCount.getD (o.inputCount.getD 1), v⟩ none
      ((List.range (l.inputCount.getD (o.inputCount.getD 1))).map .input) ⟨[], [], 0⟩ (by simp)
    split at h
    · rename_i s hr
      rw [hr] at hn
      split at h
      · rename_i hamb
        exact hn ((ambiguous_iff s).1 hamb)
      · cases h
    · rename_i e s hr
      cases h
      exact (ht.2 _ _ hr).ne_termAmbiguity rfl
    · cases h
    · cases h

/-- **C11** (top level). If the layouts give one term to each resource, then `dehydrate` succeeds on every tree that conforms to its
layout, with one applicable variant at each sum, whatever the options. -/
theorem C11_dehydrate_accepts (c : DeCtx) (hd : c.reg.DistinctKeys) (hc : c.reg.Closed) (ho : c.reg.OneTerm)
    (hw : c.reg.WellTyped) (ha : c.reg.AcyclicSums) (hs : c.Supported) (ref : Term) (v : Value) (hsort : v.Sorted)
    (hv : UniquelyConforms c.reg c.isIri ref v) (hp : v.Printable c.xsd) :
    ∃ N, ∀ n, N ≤ n → ∀ o : DeOptions, ∃ r, dehydrate c n v ref o = .ok r := by
  obtain ⟨N, hN⟩ := C11_dehydrate_accepts_partial c hd hc hw ha hs ref v hv hp
  refine ⟨N, fun n hn o => ?_⟩
  rcases hN n hn o with h | ⟨h, -⟩
  · exact h
  · exact absurd h (C11_no_term_ambiguity c hd hc ho n v hsort ref o)

/-- **C94** (exactly). If the layouts give one term to each resource, then what any error says is true of the tree, or of one of its
components. -/
theorem C94_error_exact (c : DeCtx) (hd : c.reg.DistinctKeys) (hc : c.reg.Closed) (ho : c.reg.OneTerm) (n : Nat) (v : Value)
    (hsort : v.Sorted) (ref : Term) (o : DeOptions) (e : DeError) (h : dehydrate c n v ref o = .err e) :
    DeFails c (startPlace c v ref o) e := by
  rcases C94_error_true c hd hc n v ref o e h with h' | ⟨rfl, -⟩
  · exact h'
  · exact absurd h (C11_no_term_ambiguity c hd hc ho n v hsort ref o)

/-- **C94** (exactly). If moreover sums are not cyclic and the literals are implemented, then `dehydrate` succeeds, with a sufficient
bound, on exactly the trees that are accepted. -/
theorem C94_success_iff (c : DeCtx) (hd : c.reg.DistinctKeys) (hc : c.reg.Closed) (ho : c.reg.OneTerm) (ha : c.reg.AcyclicSums)
    (hs : c.Supported) (v : Value) (hsort : v.Sorted) (hp : v.Printable c.xsd) (ref : Term) (o : DeOptions) :
    DeAccepts c (startPlace c v ref o) ↔ ∃ N, ∀ n, N ≤ n → ∃ r, dehydrate c n v ref o = .ok r := by
  constructor
  · intro hacc
    obtain ⟨N, hN⟩ := (C94_accepted_iff c hd hc ha hs (startPlace c v ref o) hp).1 hacc
    refine ⟨N, fun n hn => ?_⟩
    cases hl : c.reg ref with
    | none =>
      exact absurd (DeFails.notFound (c := c) (p := startPlace c v ref o) hl) (hacc.not_fails _)
    | some l =>
      obtain ⟨s', h⟩ := hN n hn none ((List.range (startPlace c v ref o).inputs).map .input) ⟨[], [], 0⟩ (by simp)
      simp only [startPlace, hl] at h
      have hamb := C11_no_term_ambiguity c hd hc ho n v hsort ref o
      unfold dehydrate at hamb ⊢
      rw [hl] at hamb ⊢
      simp only [h] at hamb ⊢
      split at hamb
      · exact absurd rfl hamb
      · rename_i hf
        rw [if_neg hf]
        exact ⟨_, rfl⟩
  · rintro ⟨N, hN⟩
    obtain ⟨r, h⟩ := hN N (Nat.le_refl N)
    exact C94_success_accepted c hd hc N v ref o r h

namespace OneTermWitness

open DeExample

theorem assigns {ref : Term} {k : Nat} (h : Assigns reg ref k) : k = 0 ∧ ref ≠ .iri "tags" ∧ ref ≠ .iri "list" := by
  induction h with
  | boolean h _ => exact ⟨rfl, by rintro rfl; simp [reg] at h, by rintro rfl; simp [reg] at h⟩
  | number h _ => exact ⟨rfl, by rintro rfl; simp [reg] at h, by rintro rfl; simp [reg] at h⟩
  | byteString h _ => exact ⟨rfl, by rintro rfl; simp [reg] at h, by rintro rfl; simp [reg] at h⟩
  | textString h _ => exact ⟨rfl, by rintro rfl; simp [reg] at h, by rintro rfl; simp [reg] at h⟩
  | id h _ => exact ⟨rfl, by rintro rfl; simp [reg] at h, by rintro rfl; simp [reg] at h⟩
  | @sub ref l count k j fmt hl hc hf hk hj ha ih =>
    obtain ⟨rfl, h1, h2⟩ := ih
    have hcount : count = 1 := by
      have := reg_cases (P := fun l => ∀ n, l.inputCount = some n → n = 1) (by simp [Layout.inputCount, person])
        (by simp [Layout.inputCount]) (by simp [Layout.inputCount]) (by simp [Layout.inputCount]) (by simp [Layout.inputCount, tags])
        (by simp [Layout.inputCount, rdfList]) (by simp [Layout.inputCount, either]) ref l hl
      exact this count hc
    obtain rfl : k = 0 := by omega
    refine ⟨rfl, ?_, ?_⟩
    · rintro rfl
      have : l = .unordered tags := by rw [show reg (.iri "tags") = some (.unordered tags) from rfl] at hl; exact (Option.some.inj hl).symm
      subst this
      simp only [Layout.formats, tags, List.mem_singleton] at hf
      subst hf
      simp [val] at hj
    · rintro rfl
      have : l = .ordered rdfList := by rw [show reg (.iri "list") = some (.ordered rdfList) from rfl] at hl; exact (Option.some.inj hl).symm
      subst this
      simp only [Layout.formats, rdfList, List.mem_singleton] at hf
      subst hf
      simp [val] at hj

theorem direct (l : String) (x : Nat) : (val l x).Direct reg := by
  refine ⟨fun j h => ?_, fun j j' _ h h' _ _ => by rw [(assigns h).1, (assigns h').1]⟩
  obtain ⟨rfl, -⟩ := assigns h
  exact ⟨x, rfl⟩

theorem assignsVar {l : String} {x y : Nat} (h : (val l x).AssignsVar reg y) : y = x ∧ l ≠ "tags" ∧ l ≠ "list" := by
  obtain ⟨j, hj, ha⟩ := h
  obtain ⟨rfl, h1, h2⟩ := assigns ha
  refine ⟨?_, fun e => h1 (by rw [← e]; rfl), fun e => h2 (by rw [← e]; rfl)⟩
  simpa [val, eq_comm] using hj

/-- The layouts give one term to each resource: of the fields of the person only the identifier gives a term to the person itself, and of
the variants only the person gives a term to the input. -/
theorem reg_oneTerm : reg.OneTerm := by
  unfold Registry.OneTerm
  refine reg_cases ?_ ?_ ?_ ?_ ?_ ?_ ?_
  · refine ⟨?_, ?_⟩
    · intro e he
      simp only [person, List.mem_cons, List.not_mem_nil, or_false] at he
      rcases he with rfl | rfl | rfl | rfl <;> exact direct _ _
    · intro e he e' he' hne x hx ⟨h, h'⟩
      replace hx : x < 1 := hx
      simp only [person, List.mem_cons, List.not_mem_nil, or_false] at he he'
      rcases he with rfl | rfl | rfl | rfl <;> rcases he' with rfl | rfl | rfl | rfl <;>
        have h1 := assignsVar h <;> have h2 := assignsVar h' <;> first
        | exact absurd rfl hne
        | omega
        | exact h1.2.1 rfl
        | exact h2.2.1 rfl
  · exact ⟨0, rfl⟩
  · exact ⟨0, rfl⟩
  · exact ⟨0, rfl⟩
  · refine ⟨direct _ _, fun x h => ?_⟩
    obtain ⟨rfl, -⟩ := assignsVar h
    decide
  · refine ⟨direct _ _, fun x h => ?_⟩
    obtain ⟨rfl, -⟩ := assignsVar h
    decide
  · refine ⟨?_, ?_⟩
    · intro e he
      simp only [either, List.mem_cons, List.not_mem_nil, or_false] at he
      rcases he with rfl | rfl <;> exact direct _ _
    · simp only [either, List.pairwise_cons, List.mem_singleton, forall_eq, List.not_mem_nil, false_implies, implies_true, List.Pairwise.nil,
        and_true]
      exact .inl fun x _ ⟨_, h⟩ => (assignsVar h).2.2 rfl

theorem alice_sorted : alice.Sorted := by
  refine .map _ (by unfold SortedKeys; decide +kernel) ?_
  intro e he
  simp only [List.mem_cons, List.not_mem_nil, or_false] at he
  rcases he with rfl | rfl | rfl | rfl
  · exact .literal _
  · exact .literal _
  · exact .literal _
  · refine .list _ ?_
    intro v hv
    simp only [List.mem_cons, List.not_mem_nil, or_false] at hv
    rcases hv with rfl | rfl <;> exact .literal _

theorem letters_sorted : letters.Sorted := by
  refine .list _ ?_
  intro v hv
  simp only [List.mem_cons, List.not_mem_nil, or_false] at hv
  rcases hv with rfl | rfl <;> exact .literal _

/-- A record whose two fields describe the same resource is not among these layouts. -/
example : ¬ Witness.twiceCtx.reg.OneTerm := by
  intro h
  have h1 := (h (.iri "twice") _ rfl).2 _ (.head _) _ (.tail _ (.head _)) (by simp [Value.text]) 0 (by decide)
  exact h1 ⟨⟨0, rfl, .textString (l := text) rfl rfl⟩, ⟨0, rfl, .textString (l := text) rfl rfl⟩⟩

end OneTermWitness

open OneTermWitness DeExample

example (n : Nat) (o : DeOptions) := C11_no_term_ambiguity ctx reg_distinctKeys reg_closed reg_oneTerm n alice alice_sorted (.iri "person") o

example := C11_dehydrate_accepts ctx reg_distinctKeys reg_closed reg_oneTerm reg_wellTyped reg_acyclicSums ctx_supported
  (.iri "person") alice alice_sorted alice_conforms alice_printable

example := C11_dehydrate_accepts ctx reg_distinctKeys reg_closed reg_oneTerm reg_wellTyped reg_acyclicSums ctx_supported
  (.iri "either") letters letters_sorted letters_conforms letters_printable

example : DeAccepts ctx (startPlace ctx letters (.iri "either") opts) :=
  (C94_success_iff ctx reg_distinctKeys reg_closed reg_oneTerm reg_acyclicSums ctx_supported letters letters_sorted letters_printable
    (.iri "either") opts).2 ((C11_dehydrate_accepts ctx reg_distinctKeys reg_closed reg_oneTerm reg_wellTyped reg_acyclicSums ctx_supported
  (.iri "either") letters letters_sorted letters_conforms letters_printable).imp fun _ h n hn => h n hn opts)

end Verif.Props
