import Verif.RereadNames
import Verif.Props.Reproduce
import Verif.HydrateComplete
import Verif.RereadExample

/-! # C80: reading again what was written

The specification is in `Verif/RereadSpec.lean`.
-/

set_option linter.unusedSectionVars false
set_option linter.unusedSimpArgs false

namespace Verif.Props

open Verif.Dehydrate Verif.Reproduce

/-- The context of a dataset, with the terms `b t` standing for the terms `t` in use. -/
noncomputable def standing (reg : Registry Term) (x : Xsd) (le : TypedValue Term → TypedValue Term → Bool) (quads : List (Quad Term))
    (P : Term → Prop) (b : Term → Term) : HyCtx Term := by
  classical exact
  { reg := reg, xsd := x, le := le, ds := quads.map (Quad.map b)
    irisOf := fun u => if h : ∃ t, P t ∧ b t = u then h.choose.iris else []
    literalsOf := fun u => if h : ∃ t, P t ∧ b t = u then h.choose.ownLiterals else [] }

theorem standing_iris {reg : Registry Term} {x : Xsd} {le : TypedValue Term → TypedValue Term → Bool} {quads : List (Quad Term)}
    {P : Term → Prop} {b : Term → Term} (hb : ∀ t t', P t → P t' → b t = b t' → t = t') {t : Term} (ht : P t) :
    (standing reg x le quads P b).irisOf (b t) = t.iris ∧ (standing reg x le quads P b).literalsOf (b t) = t.ownLiterals := by
  have hex : ∃ t', P t' ∧ b t' = b t := ⟨t, ht, rfl⟩
  have he : hex.choose = t := hb _ _ hex.choose_spec.1 ht hex.choose_spec.2
  simp only [standing, dif_pos hex]
  rw [he]
  exact ⟨rfl, rfl⟩

theorem iris_of_written {reg : Registry Term} {x : Xsd} {le : TypedValue Term → TypedValue Term → Bool} {ds : List (Quad Term)}
    {u t : Term} (h : WrittenAs x u t) {i : String} (hi : i ∈ t.iris) : i ∈ (HyCtx.ofTerms reg x le ds).irisOf u := by
  cases h with
  | same => cases u <;> first | exact hi | exact nomatch hi
  | boolean _ => exact nomatch hi
  | number _ _ _ => exact nomatch hi

theorem literals_of_written {reg : Registry Term} {x : Xsd} {le : TypedValue Term → TypedValue Term → Bool}
    {ds : List (Quad Term)} {u t : Term} (h : WrittenAs x u t) {l : RdfLit} (hl : l ∈ t.ownLiterals) :
    ∃ l' ∈ (HyCtx.ofTerms reg x le ds).literalsOf u, l.type = l'.type := by
  cases h with
  | same => cases u <;> first | exact ⟨l, hl, rfl⟩ | exact nomatch hl
  | boolean _ => obtain rfl := List.mem_singleton.1 hl; exact ⟨_, List.mem_singleton.2 rfl, rfl⟩
  | number _ _ _ => obtain rfl := List.mem_singleton.1 hl; exact ⟨_, List.mem_singleton.2 rfl, rfl⟩

/-- **C80** (as far as the code goes). A tree is read from a dataset, written with the same layouts, and read again from
what was written. The terms written stand for terms of the dataset, in such a way that the quads written are quads of the
dataset. If no two terms written stand for the same term, then whenever the second reading returns, it returns the tree of
the first one. What is missing: besides the exclusions of C79, nodes without an identifier that were read at several places
are written several times, see `C80_shared_node`; and a tree must not be readable through two variants of a sum. -/
theorem C80_read_again_partial (c : DeCtx) (le : TypedValue Term → TypedValue Term → Bool) (hle : TotalOrder le)
    (hx : XsdLaws c.xsd) (hcl : c.reg.Closed) (hkeys : c.reg.DistinctKeys) (hrev : c.reg.Reversible) (ds : List (Quad Term))
    (hds : ds.Nodup) (hsums : ∀ k, (HyCtx.ofTerms c.reg c.xsd le ds).Part k → k.Discriminated)
    (ref : Term) (inputs : List Term) (m : Nat) (v : TypedValue Term)
    (hread : Hydrate.hydrate (HyCtx.ofTerms c.reg c.xsd le ds) m none ref inputs = .ok v) (hdec : WellDecided c.reg v)
    (hapart : WrittenApart c.xsd ((HyCtx.ofTerms c.reg c.xsd le ds).Uses none inputs))
    (o : DeOptions) (ho : ∀ l, (o.order l).Perm l) (hnames : DistinctNames o)
    (hnew : NewNames c.xsd ((HyCtx.ofTerms c.reg c.xsd le ds).Uses none inputs) o inputs)
    (hcount : o.inputCount = some inputs.length) (n : Nat) (quads : List (Quad Term)) (values : List Term)
    (hwrite : dehydrate c n v.untype ref o = .ok (quads, values)) :
    ∃ b : Term → Term, values.map b = inputs ∧ (∀ q ∈ quads, q.map b ∈ ds) ∧ (∀ t, c.reg.HasConstant t → b t = t) ∧
      (∀ t, (HyCtx.ofTerms c.reg c.xsd le quads).Uses none values t → Origin c.xsd o b t (b t)) ∧
      ((∀ t t', (HyCtx.ofTerms c.reg c.xsd le quads).Uses none values t →
          (HyCtx.ofTerms c.reg c.xsd le quads).Uses none values t' → b t = b t' → t = t') →
        (∀ k, m ≤ k → Hydrate.hydrate (HyCtx.ofTerms c.reg c.xsd le quads) k none ref values ≠ .panic →
          Hydrate.hydrate (HyCtx.ofTerms c.reg c.xsd le quads) k none ref values ≠ .fuel →
          Hydrate.hydrate (HyCtx.ofTerms c.reg c.xsd le quads) k none ref values = .ok v) ∧
        (c.reg.NoVariantIntro → (HyCtx.ofTerms c.reg c.xsd le ds).ToldApart →
          ∃ N, ∀ k, N ≤ k → Hydrate.hydrate (HyCtx.ofTerms c.reg c.xsd le quads) k none ref values = .ok v)) := by
  classical
  obtain ⟨l, count, s, f, hl, hc, hrun, _, hn, hq, hnodup, hv⟩ :=
    C14_one_term_per_resource c n v.untype ref o ho quads values hwrite
  obtain rfl : count = inputs.length := by
    rw [hc]
    exact run_count c le hle hcl ds hds ref inputs m v hread o hcount l hl
  -- the run
  have hmean : Meaning (HyCtx.ofTerms c.reg c.xsd le ds) m none ref inputs v :=
    ((C04_hydrate_meaning (HyCtx.ofTerms c.reg c.xsd le ds) hcl hds hle m none ref inputs).1 v hread m (Nat.le_refl _) v).2 rfl
  have hP : Domain ((HyCtx.ofTerms c.reg c.xsd le ds).Uses none inputs) c.reg ds :=
    ⟨fun q hq t ht => .inl ⟨q, hq, ht⟩, fun t ht => .inr (.inl ht)⟩
  have hold : ∀ r ∈ (List.range inputs.length).map IRes.input, Old 0 r := by
    intro r hr
    obtain ⟨i, _, rfl⟩ := List.mem_map.1 hr
    exact fun _ h => nomatch h
  obtain ⟨h, st, hre⟩ := back c le hcl hkeys hrev hP n m none ref inputs _ v ⟨[], [], 0⟩ s (start inputs) hmean hdec hrun
    (fun _ => rfl) (map_start inputs) hold (fun t ht => .inr (.inr (.inr ht)))
  have hterm : ∀ t, h (.term t) = t := fun t => st.agree _ (old_term _ t)
  have hquads : ∀ q ∈ s.out, q.map h ∈ ds := fun q hq => by
    rcases st.quads q hq with hq | hq
    · exact nomatch hq
    · exact hq.2
  have hins : ∀ i, i < inputs.length → inputs[i]? = some (h (.input i)) := by
    intro i hi
    rw [st.agree (.input i) (fun _ h => nomatch h), List.getElem?_eq_getElem hi]
    simp [start, hi]
  -- the resources in use
  let U : IRes → Prop := fun r => Occurs s.out inputs.length r ∨ ∃ t, r = .term t ∧ c.reg.HasConstant t
  have hU : ∀ r, U r → (HyCtx.ofTerms c.reg c.xsd le ds).Uses none inputs (h r) ∧
      (Occurs s.out inputs.length r ∨ ∃ t, r = .term t) := by
    rintro r (hr | ⟨t, rfl, ht⟩)
    · refine ⟨?_, .inl hr⟩
      rcases hr with ⟨q, hq, hr⟩ | ⟨i, hi, rfl⟩
      · refine .inl ⟨_, hquads q hq, ?_⟩
        rcases hr with rfl | rfl | rfl | hg
        · exact .inl rfl
        · exact .inr (.inl rfl)
        · exact .inr (.inr (.inl rfl))
        · refine .inr (.inr (.inr ?_))
          simp [Quad.map, hg]
      · exact .inr (.inr (.inr (List.mem_of_getElem? (hins i hi))))
    · exact ⟨.inr (.inl (by rw [hterm]; exact ht)), .inr ⟨t, rfl⟩⟩
  have hwr : ∀ e ∈ s.terms, WrittenAs c.xsd (h e.1) e.2 := fun e he => by
    rcases st.terms e he with he | he
    · exact nomatch he
    · exact he.2.2
  have hocc : ∀ q ∈ s.out, q.Uses U := fun q hq =>
    ⟨.inl (.inl ⟨q, hq, .inl rfl⟩), .inl (.inl ⟨q, hq, .inr (.inl rfl)⟩), .inl (.inl ⟨q, hq, .inr (.inr (.inl rfl))⟩),
      fun g hg => .inl (.inl ⟨q, hq, .inr (.inr (.inr hg))⟩)⟩
  have hown := C13_run_uses_own_resources c n v.untype none ref ((List.range inputs.length).map .input) ⟨[], [], 0⟩
  rw [hrun] at hown
  have hinput : ∀ i, Occurs s.out inputs.length (.input i) → i < inputs.length := by
    rintro i (⟨q, hq, hi⟩ | ⟨j, hj, he⟩)
    · have huses : q.Uses _ := (hown.quads q hq).resolve_left (fun h => nomatch h)
      have key : ∀ {k k' : Nat}, Known (· ∈ (List.range inputs.length).map IRes.input) k k' (.input i) → i < inputs.length := by
        rintro _ _ (h1 | ⟨t, h1⟩ | ⟨j, h1, _⟩)
        · obtain ⟨j, hj, he⟩ := List.mem_map.1 h1
          injection he with he
          subst he
          exact List.mem_range.1 hj
        · exact nomatch h1
        · exact nomatch h1
      rcases hi with hi | hi | hi | hi
      · exact key (hi ▸ huses.1)
      · exact key (hi ▸ huses.2.1)
      · exact key (hi ▸ huses.2.2.1)
      · exact key (huses.2.2.2 _ hi)
    · injection he with he
      subst he
      exact hj
  have hsame : ∀ r r', U r → U r' → f r = f r' → h r = h r' := fun r r' hr hr' he =>
    same_name hn hnames hterm hwr (fun i hi => hins i (hinput i hi)) hapart hnew hU hr hr' he
  have hkind : ∀ r, U r → WrittenAs c.xsd (h r) (f r) ∨ ∃ s, f r = .blank s := by
    intro r hr
    by_cases hass : ∃ t, (r, t) ∈ s.terms
    · obtain ⟨t, ht⟩ := hass
      rw [hn.assigned r t ht]
      exact .inl (hwr _ ht)
    · have hass : ∀ t, (r, t) ∉ s.terms := fun t ht => hass ⟨t, ht⟩
      cases r with
      | term t => rw [hn.term, hterm]; exact .inl (.same t)
      | input i =>
        have hr : Occurs s.out inputs.length (.input i) := by
          rcases hr with hr | ⟨t, ht, _⟩
          · exact hr
          · exact nomatch ht
        rw [hn.input i hr hass]
        rcases hnew.input_blank i with hb | hb
        · exact .inr hb
        · left
          have := hins i (hinput i hr)
          rw [hb] at this
          injection this with this
          rw [← this]
          exact .same _
      | anon i =>
        have hr : Occurs s.out inputs.length (.anon i) := by
          rcases hr with hr | ⟨t, ht, _⟩
          · exact hr
          · exact nomatch ht
        obtain ⟨pos, hpos, _⟩ := hn.generated
        rw [hpos i hr hass]
        exact .inr (hnew.generator_blank _)
  -- what the names stand for
  let b : Term → Term := fun t => if hex : ∃ r, U r ∧ f r = t then h hex.choose else t
  have hb : ∀ r, U r → b (f r) = h r := by
    intro r hr
    have hex : ∃ r', U r' ∧ f r' = f r := ⟨r, hr, rfl⟩
    simp only [b, dif_pos hex]
    exact hsame _ _ hex.choose_spec.1 hr hex.choose_spec.2
  have hbconst : ∀ t, c.reg.HasConstant t → b t = t := by
    intro t ht
    have := hb (.term t) (.inr ⟨t, rfl, ht⟩)
    rwa [hn.term, hterm] at this
  have hbquad : ∀ q ∈ s.out, (q.map f).map b = q.map h := fun q hq => by
    rw [map_map]
    exact map_congr (hocc q hq) hb
  have huse : ∀ t, (HyCtx.ofTerms c.reg c.xsd le quads).Uses none values t → ∃ r, U r ∧ f r = t := by
    rintro t (⟨q, hq', ht⟩ | ht | ht | ht)
    · obtain ⟨q0, hq0, rfl⟩ := (hq q).1 hq'
      rcases ht with rfl | rfl | rfl | ht
      · exact ⟨_, (hocc q0 hq0).1, rfl⟩
      · exact ⟨_, (hocc q0 hq0).2.1, rfl⟩
      · exact ⟨_, (hocc q0 hq0).2.2.1, rfl⟩
      · simp only [Quad.map, Option.map_eq_some_iff] at ht
        obtain ⟨g, hg, rfl⟩ := ht
        exact ⟨_, (hocc q0 hq0).2.2.2 g hg, rfl⟩
    · exact ⟨.term t, .inr ⟨t, rfl, ht⟩, hn.term t⟩
    · exact nomatch ht
    · rw [hv] at ht
      obtain ⟨i, hi, rfl⟩ := List.mem_map.1 ht
      exact ⟨_, .inl (.inr ⟨i, List.mem_range.1 hi, rfl⟩), rfl⟩
  have hvalues : values.map b = inputs := by
    rw [hv, List.map_map]
    apply List.ext_getElem?
    intro i
    by_cases hi : i < inputs.length
    · rw [hins i hi]
      simp only [List.getElem?_map, List.getElem?_range hi, Option.map_some, Function.comp_apply]
      rw [hb _ (.inl (.inr ⟨i, hi, rfl⟩))]
    · rw [List.getElem?_eq_none (by simp; omega), List.getElem?_eq_none (by omega)]
  refine ⟨b, hvalues, fun q hq' => ?_, hbconst, fun t ht => ?_, fun hinj => ?_⟩
  · obtain ⟨q0, hq0, rfl⟩ := (hq q).1 hq'
    rw [hbquad q0 hq0]
    exact hquads q0 hq0
  · obtain ⟨r, hr, rfl⟩ := huse t ht
    rw [hb r hr]
    obtain ⟨b', hb'⟩ := origin_of (W := WrittenAs c.xsd) .same hn hnames h hterm hwr
    have hr0 := hr
    rcases hr with hr' | ⟨t, rfl, _⟩
    · rcases hb' r hr' with h1 | ⟨_, h1⟩
      · exact .inl h1
      · exact .inr ⟨(hb r hr0).symm, h1⟩
    · left
      rw [hterm, hn.term]
      exact .same t
  · have hst := fun {t : Term} => standing_iris (reg := c.reg) (x := c.xsd) (le := le) (quads := quads) hinj (t := t)
    generalize hK : standing c.reg c.xsd le quads ((HyCtx.ofTerms c.reg c.xsd le quads).Uses none values) b = K at hst
    have hKds : K.ds = quads.map (Quad.map b) := by rw [← hK]; rfl
    have hKreg : K.reg = c.reg := by rw [← hK]; rfl
    have hKx : K.xsd = c.xsd := by rw [← hK]; rfl
    have hKle : K.le = le := by rw [← hK]; rfl
    have huses : ∀ r, U r → (HyCtx.ofTerms c.reg c.xsd le quads).Uses none values (f r) := by
      rintro r ((⟨q, hq', hr⟩ | ⟨i, hi, rfl⟩) | ⟨t, rfl, ht⟩)
      · refine .inl ⟨_, (hq _).2 ⟨q, hq', rfl⟩, ?_⟩
        rcases hr with rfl | rfl | rfl | hg
        · exact .inl rfl
        · exact .inr (.inl rfl)
        · exact .inr (.inr (.inl rfl))
        · refine .inr (.inr (.inr ?_))
          simp [Quad.map, hg]
      · exact .inr (.inr (.inr (by rw [hv]; exact List.mem_map.2 ⟨i, List.mem_range.2 hi, rfl⟩)))
      · rw [hn.term]; exact .inr (.inl ht)
    have hpart : (HyCtx.ofTerms c.reg c.xsd le ds).Part K := by
      have hlook : ∀ u, (∃ r, U r ∧ h r = u ∧ K.irisOf u = (f r).iris ∧ K.literalsOf u = (f r).ownLiterals) ∨
          K.irisOf u = [] ∧ K.literalsOf u = [] := by
        intro u
        by_cases hu : ∃ t, (HyCtx.ofTerms c.reg c.xsd le quads).Uses none values t ∧ b t = u
        · obtain ⟨t, ht, rfl⟩ := hu
          obtain ⟨r, hr, rfl⟩ := huse t ht
          obtain ⟨h1, h2⟩ := hst ht
          exact .inl ⟨r, hr, (hb r hr).symm, h1, h2⟩
        · right
          rw [← hK]
          simp only [standing, dif_neg hu, and_self]
      refine ⟨hKreg, hKx, hKle, fun q hq' => ?_, fun u i hi => ?_, fun u lit hlit => ?_⟩
      · rw [hKds] at hq'
        obtain ⟨q1, hq1, rfl⟩ := List.mem_map.1 hq'
        obtain ⟨q0, hq0, rfl⟩ := (hq q1).1 hq1
        rw [hbquad q0 hq0]
        exact hquads q0 hq0
      · rcases hlook u with ⟨r, hr, rfl, h1, _⟩ | ⟨h1, _⟩ <;> rw [h1] at hi
        · rcases hkind r hr with hk | ⟨s', hk⟩
          · exact iris_of_written hk hi
          · rw [hk] at hi; exact nomatch hi
        · exact nomatch hi
      · rcases hlook u with ⟨r, hr, rfl, _, h1⟩ | ⟨_, h1⟩ <;> rw [h1] at hlit
        · rcases hkind r hr with hk | ⟨s', hk⟩
          · exact literals_of_written hk hlit
          · rw [hk] at hlit; exact nomatch hlit
        · exact nomatch hlit
    have hview : View c.reg c.xsd le ds K U := by
      refine ⟨hpart, fun t ht => ?_, fun t ht => .inr ⟨t, rfl, ht⟩, hsums K hpart, hx⟩
      have := (hst (t := t) (.inr (.inl ht))).1
      rwa [hbconst t ht] at this
    have hfits : Fits K U h s := by
      refine ⟨fun q hq' _ => ?_, hocc, fun e he _ hUe => ?_⟩
      · rw [hKds, ← hbquad q hq']
        exact List.mem_map_of_mem ((hq _).2 ⟨q, hq', rfl⟩)
      · rw [← hb e.1 hUe, hn.assigned e.1 e.2 he]
        have := huses e.1 hUe
        rw [hn.assigned e.1 e.2 he] at this
        exact hst this
    have hmeanK : ∀ j, Meaning K (m + j) none ref inputs v := fun j => hre K j U hview hfits (by
      intro r hr
      obtain ⟨i, hi, rfl⟩ := List.mem_map.1 hr
      exact .inl (.inr ⟨i, List.mem_range.1 hi, rfl⟩))
    have hren := fun k => C67_rename (HyCtx.ofTerms c.reg c.xsd le quads) K b none values hKreg hKx hKle hKds hinj hbconst
      (fun r hr => by rw [(hst hr).1]; cases r <;> rfl) (fun r hr => by rw [(hst hr).2]; cases r <;> rfl) k ref
    simp only [Option.map_none, hvalues] at hren
    have hnodupK : K.ds.Nodup := by
      rw [hKds]
      refine List.Nodup.map_on (fun q hq1 q' hq2 he => ?_) hnodup
      exact map_injective hinj (fun t ht => .inl ⟨q, hq1, ht⟩) (fun t ht => .inl ⟨q', hq2, ht⟩) he
    refine ⟨fun k hk hp hf => ?_, fun hno hapartK => ?_⟩
    · obtain ⟨j, rfl⟩ := Nat.exists_eq_add_of_le hk
      have hok := C04_meaning_hydrate K (by rw [hKreg]; exact hcl) hnodupK (by rw [hKle]; exact hle) (m + j) none ref inputs v
        (hmeanK j) (by
          rw [hren]
          intro h'
          cases hh : Hydrate.hydrate (HyCtx.ofTerms c.reg c.xsd le quads) (m + j) none ref values <;> rw [hh] at h' <;>
            first | exact hp hh | exact nomatch h') (by
          rw [hren]
          intro h'
          cases hh : Hydrate.hydrate (HyCtx.ofTerms c.reg c.xsd le quads) (m + j) none ref values <;> rw [hh] at h' <;>
            first | exact hf hh | exact nomatch h')
      rw [hren] at hok
      exact Out.mapErr_eq_ok.1 hok
    · have hone : ∀ r, (K.literalsOf r).length ≤ 1 := by
        intro r
        rw [← hK]
        simp only [standing]
        split
        · generalize Exists.choose _ = t
          cases t <;> simp [Term.ownLiterals]
        · simp
      obtain ⟨N, hN⟩ := Hydrate.returns_hydrate K (by rw [hKreg]; exact hcl) (by rw [hKreg]; exact hno) hnodupK
        (by rw [hKle]; exact hle) hone (fun ref l hl g σ ⟨ins, hn, hs⟩ i j x y τ τ' hi hj h1 h2 => by
          rw [hKreg] at hl
          exact hapartK ref l hl g σ ⟨ins, hn, isMatch_sub hpart.ds hs⟩ i j x y τ τ' hi hj (isMatch_sub hpart.ds h1) (isMatch_sub hpart.ds h2)) m none ref inputs v
        (hmeanK 0)
      refine ⟨N, fun k hk => ?_⟩
      have hok := hN k hk
      dsimp only at hok
      rw [hren] at hok
      exact Out.mapErr_eq_ok.1 hok

/-- Variants told apart by their patterns are told apart in every part of the dataset. -/
theorem part_discriminated {c k : HyCtx Term} (h : c.ToldApart) (hp : c.Part k) : k.Discriminated := by
  rintro m ref l hl σ ⟨ins, hn, hs⟩ i j x y v w hx hy ⟨τ, hτ, _⟩ ⟨τ', hτ', _⟩
  rw [hp.reg] at hl
  exact h ref l hl none σ ⟨ins, hn, isMatch_sub hp.ds hs⟩ i j x y τ τ' hx hy (isMatch_sub hp.ds hτ.1) (isMatch_sub hp.ds hτ'.1)

/-- **C80** (nodes that are all identified). A tree is read from a dataset, whose literals are canonical, and written with the
same layouts. If no name had to be generated, then what is written is a part of the dataset, and the same tree is read from
it. -/
theorem C80_identified_partial (c : DeCtx) (le : TypedValue Term → TypedValue Term → Bool) (hle : TotalOrder le)
    (hx : XsdLaws c.xsd) (hcl : c.reg.Closed) (hno : c.reg.NoVariantIntro) (hkeys : c.reg.DistinctKeys)
    (hrev : c.reg.Reversible) (ds : List (Quad Term)) (hds : ds.Nodup) (hsums : (HyCtx.ofTerms c.reg c.xsd le ds).ToldApart)
    (ref : Term) (inputs : List Term) (m : Nat) (v : TypedValue Term)
    (hread : Hydrate.hydrate (HyCtx.ofTerms c.reg c.xsd le ds) m none ref inputs = .ok v) (hdec : WellDecided c.reg v)
    (hcanon : ∀ u, (HyCtx.ofTerms c.reg c.xsd le ds).Uses none inputs u → Canonical c.xsd u)
    (o : DeOptions) (ho : ∀ l, (o.order l).Perm l) (hnames : DistinctNames o)
    (hnew : NewNames c.xsd ((HyCtx.ofTerms c.reg c.xsd le ds).Uses none inputs) o inputs)
    (hcount : o.inputCount = some inputs.length) (n : Nat) (quads : List (Quad Term)) (values : List Term)
    (hwrite : dehydrate c n v.untype ref o = .ok (quads, values))
    (hident : ∀ t, (HyCtx.ofTerms c.reg c.xsd le quads).Uses none values t → ∀ i, t ≠ o.generator i ∧ t ≠ o.inputTerm i) :
    values = inputs ∧ (∀ q ∈ quads, q ∈ ds) ∧
      ∃ N, ∀ k, N ≤ k → Hydrate.hydrate (HyCtx.ofTerms c.reg c.xsd le quads) k none ref inputs = .ok v := by
  obtain ⟨b, h1, h2, h3, h4, h5⟩ := C80_read_again_partial c le hle hx hcl hkeys hrev ds hds
    (fun k hk => part_discriminated hsums hk) ref inputs m v hread hdec
    (fun u u' t hu hu' h h' => ((hcanon u hu t h).symm.trans (hcanon u' hu' t h'))) o ho hnames hnew hcount n quads values hwrite
  have hb : ∀ t, (HyCtx.ofTerms c.reg c.xsd le quads).Uses none values t → b t = t := by
    intro t ht
    rcases h4 t ht with h | ⟨_, i, h | h⟩
    · refine (hcanon (b t) ?_ t h).symm
      rcases ht with ⟨q, hq, ht⟩ | ht | ht | ht
      · refine .inl ⟨_, h2 q hq, ?_⟩
        rcases ht with rfl | rfl | rfl | ht
        · exact .inl rfl
        · exact .inr (.inl rfl)
        · exact .inr (.inr (.inl rfl))
        · refine .inr (.inr (.inr ?_))
          simp [Quad.map, ht]
      · rw [h3 t ht]; exact .inr (.inl ht)
      · exact nomatch ht
      · refine .inr (.inr (.inr ?_))
        have := List.mem_map_of_mem (f := b) ht
        rwa [h1] at this
    · exact absurd h (hident t ht i).1
    · exact absurd h (hident t ht i).2
  have hv : values = inputs := by
    rw [← h1]
    refine (List.map_congr_left (g := id) fun t ht => ?_).trans (List.map_id _) |>.symm
    exact hb t (.inr (.inr (.inr ht)))
  refine ⟨hv, fun q hq => ?_, ?_⟩
  · have := h2 q hq
    have he : q.map b = q := by
      obtain ⟨s, p, o', g⟩ := q
      simp only [Quad.map, Quad.mk.injEq]
      refine ⟨hb s (.inl ⟨_, hq, .inl rfl⟩), hb p (.inl ⟨_, hq, .inr (.inl rfl)⟩), hb o' (.inl ⟨_, hq, .inr (.inr (.inl rfl))⟩), ?_⟩
      cases g with
      | none => rfl
      | some g => simp only [Option.map_some, Option.some.injEq]; exact hb g (.inl ⟨_, hq, .inr (.inr (.inr rfl))⟩)
    rwa [he] at this
  · rw [← hv]
    refine (h5 fun t t' ht ht' he => ?_).2 hno hsums
    rw [hb t ht, hb t' ht'] at he
    exact he

open RereadExample in
theorem example_toldApart : (HyCtx.ofTerms TreeExample.ctx.reg TreeExample.ctx.xsd ReproduceExample.le persons).ToldApart :=
  fun ref l hl => absurd hl (reg_noSum ref l)

open RereadExample in
-- The list of persons: the two nodes of the list are renamed, the persons are not. The same list is read again.
example : ∃ N, ∀ k, N ≤ k →
    Hydrate.hydrate (HyCtx.ofTerms TreeExample.ctx.reg TreeExample.ctx.xsd ReproduceExample.le written) k none (.iri "members")
      [.blank "i"] = .ok both := by
  have hcanon : ∀ u, Canonical TreeExample.ctx.xsd u := ReproduceExample.canonical
  obtain ⟨b, h1, h2, h3, h4, h5⟩ := C80_read_again_partial TreeExample.ctx ReproduceExample.le ReproduceExample.le_total
    Example.xsd_laws reg_closed reg_distinctKeys reg_reversible persons (by decide +kernel)
    (fun k hk => part_discriminated example_toldApart hk) _ _ _ _ read_both both_decided
    (fun u u' t _ _ h h' => (hcanon u t h).symm.trans (hcanon u' t h')) ReproduceExample.opts (fun _ => .refl _)
    ReproduceExample.opts_distinct (names_new (by simp)) rfl _ _ _ write_both
  refine (h5 fun t t' ht ht' he => ?_).2 (fun ref l hl => absurd hl (reg_noSum ref l)) example_toldApart
  -- the blank nodes written are `_:i` and `_:b`, which stand for `_:l1` and `_:l2`
  have hi : b (.blank "i") = .blank "l1" := by simpa using h1
  have hb : b (.blank "b") = .blank "l2" := by
    have := h2 ⟨.blank "i", .iri "rest", .blank "b", none⟩ (by simp [written])
    have hp : b (.iri "rest") = .iri "rest" :=
      h3 _ ⟨.iri "members", .ordered TreeExample.members, rfl, .inr (.inr (.inr (.inl ⟨_, List.mem_cons_of_mem _ (List.mem_cons_self ..),
        .inr (.inl rfl)⟩)))⟩
    simp only [Quad.map, hi, hp, persons, Option.map_none, List.mem_cons, Quad.mk.injEq, List.not_mem_nil, or_false] at this
    simpa [lit] using this
  have hother : ∀ t, (HyCtx.ofTerms TreeExample.ctx.reg TreeExample.ctx.xsd ReproduceExample.le written).Uses none [.blank "i"] t →
      t = .blank "i" ∨ t = .blank "b" ∨ (∀ s, t ≠ .blank s) ∧ b t = t := by
    intro t ht
    have hblank : ∀ s, t = .blank s → s = "i" ∨ s = "b" := by
      rintro s rfl
      rcases ht with ⟨q, hq, h⟩ | h | h | h
      · simp only [HyCtx.ofTerms, written, List.mem_cons, List.not_mem_nil, or_false] at hq
        rcases hq with rfl | rfl | rfl | rfl | rfl | rfl | rfl | rfl | rfl <;> simp [Quad.Has, lit] at h <;> simp [h]
      · obtain ⟨i, hi⟩ := constant_iri _ h
        exact nomatch hi
      · exact nomatch h
      · simp at h; simp [h]
    by_cases hs : ∃ s, t = .blank s
    · obtain ⟨s, rfl⟩ := hs
      rcases hblank s rfl with rfl | rfl
      · exact .inl rfl
      · exact .inr (.inl rfl)
    · refine .inr (.inr ⟨fun s hs' => hs ⟨s, hs'⟩, ?_⟩)
      rcases h4 t ht with h | ⟨_, h⟩
      · exact (hcanon _ _ h).symm
      · exact absurd (ReproduceExample.name_blank h) hs
  rcases hother t ht with rfl | rfl | ⟨hn, hbt⟩ <;> rcases hother t' ht' with rfl | rfl | ⟨hn', hbt'⟩
  · rfl
  · rw [hi, hb] at he; exact absurd he (by decide)
  · rw [hi, hbt'] at he; exact absurd he.symm (hn' _)
  · rw [hi, hb] at he; exact absurd he (by decide)
  · rfl
  · rw [hb, hbt'] at he; exact absurd he.symm (hn' _)
  · rw [hi, hbt] at he; exact absurd he (hn _)
  · rw [hb, hbt] at he; exact absurd he (hn _)
  · rw [hbt, hbt'] at he; exact he

open RereadExample in
-- Alice has an identifier, and so nothing is renamed.
example (quads : List (Quad Term)) (values : List Term)
    (h : dehydrate TreeExample.ctx 9 alice.untype (.iri "person") ReproduceExample.opts = .ok (quads, values)) :
    values = [.iri "alice"] ∧ (∀ q ∈ quads, q ∈ persons) ∧ ∃ N, ∀ k, N ≤ k →
      Hydrate.hydrate (HyCtx.ofTerms TreeExample.ctx.reg TreeExample.ctx.xsd ReproduceExample.le quads) k none (.iri "person")
        [.iri "alice"] = .ok alice := by
  have hw := h
  rw [write_alice] at hw
  obtain ⟨rfl, rfl⟩ := Prod.mk.inj (Out.ok.inj hw)
  refine C80_identified_partial TreeExample.ctx ReproduceExample.le ReproduceExample.le_total
    Example.xsd_laws reg_closed (fun ref l hl => absurd hl (reg_noSum ref l)) reg_distinctKeys reg_reversible persons
    (by decide +kernel) example_toldApart _ _ _ _ read_alice alice_decided (fun u _ => ReproduceExample.canonical u)
    ReproduceExample.opts (fun _ => .refl _) ReproduceExample.opts_distinct (names_new (by simp)) rfl _ _ _ h ?_
  intro t ht i
  have hnb : ∀ s, t ≠ .blank s := by
    rintro s rfl
    rcases ht with ⟨q, hq, h⟩ | h | h | h
    · simp only [HyCtx.ofTerms, List.mem_cons, List.not_mem_nil, or_false] at hq
      rcases hq with rfl | rfl | rfl <;> simp [Quad.Has, lit] at h
    · obtain ⟨i, hi⟩ := constant_iri _ h
      exact nomatch hi
    · exact nomatch h
    · simp at h
  exact ⟨hnb _, hnb _⟩

open RereadExample in
/-- **C80** fails for a node read at two places, when a part of it has no identifier: Alice is the author and the editor of the
book, and has one home. This home is written twice. Then Alice has two homes, and the book is not read any more. -/
theorem C80_shared_node :
    bookReg.Reversible ∧ WellDecided bookReg aBook ∧
    Hydrate.hydrate (HyCtx.ofTerms bookCtx.reg bookCtx.xsd ReproduceExample.le bookQuads) 9 none (.iri "book") [.iri "book"] =
      .ok aBook ∧
    dehydrate bookCtx 9 aBook.untype (.iri "book") ReproduceExample.opts = .ok (bookWritten, [.blank "i"]) ∧
    ∃ e, ∀ k, 9 ≤ k →
      Hydrate.hydrate (HyCtx.ofTerms bookCtx.reg bookCtx.xsd ReproduceExample.le bookWritten) k none (.iri "book") [.blank "i"] =
        .err e := by
  refine ⟨⟨?_, ?_⟩, ?_, by decide +kernel, by decide +kernel, .dataAmbiguity (.key (.iri "resident") (.text "home")), fun k hk => ?_⟩
  · intro ref l h
    unfold bookReg at h
    split at h <;> simp only [Option.some.injEq, reduceCtorEq] at h <;> subst h <;>
      simp [Layout.BindsIntro, book, resident, home] <;> omega
  · intro ref l h
    unfold bookReg at h
    split at h <;> simp only [Option.some.injEq, reduceCtorEq] at h <;> subst h <;>
      simp [Layout.formats, book, resident, home, TreeExample.link, TreeExample.self, DeExample.val]
  · have hr : WellDecided bookReg aResident := by
      refine .map ?_
      simp only [List.mem_cons, List.not_mem_nil, or_false, forall_eq_or_imp, forall_eq]
      refine ⟨.map ?_, .literal _⟩
      simp only [List.mem_cons, List.not_mem_nil, or_false, forall_eq_or_imp, forall_eq]
      exact .literal _
    refine .map ?_
    simp only [List.mem_cons, List.not_mem_nil, or_false, forall_eq_or_imp, forall_eq]
    exact ⟨hr, hr⟩
  · have : Hydrate.hydrate (HyCtx.ofTerms bookCtx.reg bookCtx.xsd ReproduceExample.le bookWritten) 9 none (.iri "book")
        [.blank "i"] = .err (.dataAmbiguity (.key (.iri "resident") (.text "home"))) := by decide +kernel
    rw [C43_hydrate_deterministic _ 9 k _ _ _ (by rw [this]; simp) hk, this]

end Verif.Props
