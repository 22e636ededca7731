import Verif.Cli
import Verif.SyntaxSafe

/-!
# Loading layout files
-/

set_option linter.unusedSectionVars false
set_option linter.unusedSimpArgs false

namespace Verif

variable {R : Type} [DecidableEq R]

/-- What a layout file defines: the identifier of its layout, its layouts, and the number of identifiers generated so far. -/
abbrev FileDefs (R : Type) := R × LayoutMap R × Nat

/-- The identifiers that are defined. -/
def LayoutMap.keys (m : LayoutMap R) : List R := m.map Prod.fst

/-- Each file, in turn, stands for some definitions: it is a JSON document, a correct layout definition, and it is compiled. The
files are numbered from `n`, `k` is the number of identifiers generated before. -/
inductive Loads (env : LoadEnv R) : Nat → Nat → List SourceFile → List (FileDefs R) → Prop
  | nil {n k : Nat} : Loads env n k [] []
  | cons {n k : Nat} {j : Json} {fs : List SourceFile} {d : FileDefs R} {ds : List (FileDefs R)} :
    loadDocument env n k j = .ok d → Loads env (n + 1) d.2.2 fs ds → Loads env n k (.json j :: fs) (d :: ds)

/-- No identifier is defined twice. -/
def NoClash (ms : List (LayoutMap R)) : Prop := ms.Pairwise fun a b => ∀ r ∈ a.keys, r ∉ b.keys

/-! ## Insertion -/

theorem mem_keys_iff {m : LayoutMap R} {r : R} : r ∈ m.keys ↔ (m.lookup r).isSome = true := by
  rw [← not_iff_not, LayoutMap.keys, ← lookup_none_iff, Option.not_isSome_iff_eq_none]

theorem insertLayouts_ok {le : R → R → Bool} {new m m' : LayoutMap R} (h : insertLayouts le new m = .ok m') :
    (∀ r ∈ new.keys, m.lookup r = none) ∧ ∀ r, m'.lookup r = (new.lookup r).or (m.lookup r) := by
  induction new generalizing m with
  | nil =>
    simp only [insertLayouts, Out.ok.injEq] at h
    subst h
    simp [LayoutMap.keys]
  | cons x new ih =>
    obtain ⟨r₀, l⟩ := x
    simp only [insertLayouts] at h
    split at h
    · cases h
    · rename_i hn
      have hn : m.lookup r₀ = none := Option.not_isSome_iff_eq_none.1 hn
      obtain ⟨h1, h2⟩ := ih h
      have h3 : ∀ r ∈ LayoutMap.keys new, r ≠ r₀ ∧ m.lookup r = none := by
        intro r hr
        have := h1 r hr
        rw [lookup_bmapInsert] at this
        split at this
        · cases this
        · exact ⟨by assumption, this⟩
      refine ⟨?_, fun r => ?_⟩
      · intro r hr
        rcases List.mem_cons.1 hr with rfl | hr
        · exact hn
        · exact (h3 r hr).2
      · rw [h2, lookup_cons_ite, lookup_bmapInsert]
        split
        · rename_i hr
          subst hr
          cases hl : new.lookup r with
          | none => rfl
          | some x =>
            have : r ∈ LayoutMap.keys new := by
              refine Classical.byContradiction fun hc => ?_
              rw [lookup_none_iff.2 hc] at hl
              cases hl
            exact absurd rfl (h3 r this).1
        · rfl

theorem insertLayouts_total {le : R → R → Bool} {new m : LayoutMap R} :
    (∃ m', insertLayouts le new m = .ok m') ∨ insertLayouts le new m = .err .layoutRedefinition := by
  induction new generalizing m with
  | nil => exact .inl ⟨m, rfl⟩
  | cons x new ih =>
    obtain ⟨r₀, l⟩ := x
    simp only [insertLayouts]
    split
    · exact .inr rfl
    · exact ih

theorem insertLayouts_disjoint {le : R → R → Bool} {new m : LayoutMap R} (hn : new.keys.Nodup)
    (hd : ∀ r ∈ new.keys, m.lookup r = none) : ∃ m', insertLayouts le new m = .ok m' := by
  induction new generalizing m with
  | nil => exact ⟨m, rfl⟩
  | cons x new ih =>
    obtain ⟨r₀, l⟩ := x
    simp only [LayoutMap.keys, List.map_cons, List.nodup_cons] at hn
    simp only [insertLayouts]
    rw [if_neg (by simp [hd r₀ (by simp [LayoutMap.keys])])]
    refine ih hn.2 fun r hr => ?_
    rw [lookup_bmapInsert, if_neg]
    · exact hd r (List.mem_cons_of_mem _ hr)
    · rintro rfl
      exact hn.1 hr

/-! ## The two loops as one -/

/-- Loads files in turn: the identifiers of their layouts, and the resulting state. -/
def loadAll (env : LoadEnv R) : List SourceFile → CliState R → Out CliError (List R × CliState R)
  | [], st => .ok ([], st)
  | f :: fs, st => (loadLayout env st f).bind fun r => (loadAll env fs r.2).bind fun rs => .ok (r.1 :: rs.1, rs.2)

theorem loadLayouts_eq (env : LoadEnv R) (fs : List SourceFile) : ∀ (st : CliState R) (d : DefaultLayout R),
    loadLayouts env fs st d = (loadAll env fs st).bind fun r => .ok (r.2, r.1.foldl (fun d r => d.set r) d) := by
  induction fs with
  | nil => intro st d; rfl
  | cons f fs ih =>
    intro st d
    simp only [loadLayouts, loadAll]
    cases loadLayout env st f with
    | ok r =>
      simp only [Out.bind, ih]
      cases loadAll env fs r.2 <;> rfl
    | _ => rfl

theorem loadIncludes_eq (env : LoadEnv R) (fs : List SourceFile) : ∀ (st : CliState R),
    loadIncludes env fs st = (loadAll env fs st).bind fun r => .ok r.2 := by
  induction fs with
  | nil => intro st; rfl
  | cons f fs ih =>
    intro st
    simp only [loadIncludes, loadAll]
    cases loadLayout env st f with
    | ok r =>
      simp only [Out.bind, ih]
      cases loadAll env fs r.2 <;> rfl
    | _ => rfl

theorem loadAll_append (env : LoadEnv R) (fs gs : List SourceFile) : ∀ (st : CliState R),
    loadAll env (fs ++ gs) st =
      (loadAll env fs st).bind fun r => (loadAll env gs r.2).bind fun s => .ok (r.1 ++ s.1, s.2) := by
  induction fs with
  | nil =>
    intro st
    simp only [List.nil_append, loadAll, Out.bind]
    cases loadAll env gs st <;> rfl
  | cons f fs ih =>
    intro st
    simp only [List.cons_append, loadAll]
    cases loadLayout env st f with
    | ok r =>
      simp only [Out.bind, ih]
      cases loadAll env fs r.2 with
      | ok r' =>
        simp only [Out.bind]
        cases loadAll env gs r'.2 <;> rfl
      | _ => rfl
    | _ => rfl

/-- `DefaultLayoutRef` after some files. -/
def defaultOf : List R → DefaultLayout R
  | [] => .none
  | [r] => .some r
  | _ => .ambiguous

theorem foldl_set_ambiguous (rs : List R) : rs.foldl (fun d r => d.set r) (DefaultLayout.ambiguous) = .ambiguous := by
  induction rs with
  | nil => rfl
  | cons r rs ih => exact ih

theorem foldl_set (rs : List R) : rs.foldl (fun d r => d.set r) DefaultLayout.none = defaultOf rs := by
  match rs with
  | [] => rfl
  | [r] => rfl
  | r :: r' :: rs => exact foldl_set_ambiguous rs

theorem prepare_eq (env : LoadEnv R) (prelude : Registry R) (args : CliArgs) :
    prepare env prelude args = (loadAll env args.layouts {}).bind fun r => (loadAll env args.includes r.2).bind fun s =>
      .ok (Registry.including s.2.layouts.registry (Registry.optional (if args.noPrelude then none else some prelude)),
        defaultOf r.1) := by
  simp only [prepare, loadLayouts_eq]
  cases loadAll env args.layouts {} with
  | ok r =>
    simp only [Out.bind, loadIncludes_eq, foldl_set]
    cases loadAll env args.includes r.2 <;> rfl
  | _ => rfl

/-! ## Loading -/

theorem loadLayout_ok {env : LoadEnv R} {st st' : CliState R} {f : SourceFile} {r : R}
    (h : loadLayout env st f = .ok (r, st')) : ∃ j d, f = .json j ∧ loadDocument env st.files st.next j = .ok d ∧ d.1 = r ∧
      insertLayouts env.ctx.le d.2.1 st.layouts = .ok st'.layouts ∧ st'.next = d.2.2 ∧ st'.files = st.files + 1 := by
  cases f with
  | unreadable => cases h
  | notJson => cases h
  | json j =>
    simp only [loadLayout, Out.bind_eq_ok, Out.mapErr_eq_ok, Out.ok.injEq, Prod.mk.injEq] at h
    obtain ⟨d, hd, m, hm, rfl, rfl⟩ := h
    exact ⟨j, d, rfl, hd, rfl, hm, rfl, rfl⟩

/-- The definition found for a reference: that of the first of the maps that has one. -/
def firstLookup (ms : List (LayoutMap R)) (r : R) : Option (Layout R × List (R × R)) := ms.findSome? fun m => m.lookup r

theorem or_firstLookup (ms : List (LayoutMap R)) (m : LayoutMap R) (r : R) :
    firstLookup (m :: ms) r = (m.lookup r).or (firstLookup ms r) := by
  simp only [firstLookup, List.findSome?_cons]
  cases m.lookup r <;> rfl

theorem firstLookup_none {ms : List (LayoutMap R)} {r : R} : firstLookup ms r = none ↔ ∀ m ∈ ms, r ∉ m.keys := by
  simp only [firstLookup, List.findSome?_eq_none_iff, lookup_none_iff, LayoutMap.keys]

theorem loadAll_ok {env : LoadEnv R} {fs : List SourceFile} : ∀ {st st' : CliState R} {rs : List R},
    loadAll env fs st = .ok (rs, st') → ∃ ds, Loads env st.files st.next fs ds ∧ rs = ds.map Prod.fst ∧
      NoClash (st.layouts :: ds.map fun d => d.2.1) ∧
      (∀ r, st'.layouts.lookup r = (firstLookup (ds.map fun d => d.2.1) r).or (st.layouts.lookup r)) := by
  induction fs with
  | nil =>
    intro st st' rs h
    simp only [loadAll, Out.ok.injEq, Prod.mk.injEq] at h
    obtain ⟨rfl, rfl⟩ := h
    exact ⟨[], .nil, rfl, by simp [NoClash], fun r => by simp [firstLookup]⟩
  | cons f fs ih =>
    intro st st' rs h
    simp only [loadAll, Out.bind_eq_ok, Out.ok.injEq, Prod.mk.injEq] at h
    obtain ⟨⟨r, st₁⟩, h1, ⟨rs', st''⟩, h2, rfl, rfl⟩ := h
    obtain ⟨j, d, rfl, hd, rfl, hm, hk, hf⟩ := loadLayout_ok h1
    obtain ⟨hm1, hm2⟩ := insertLayouts_ok hm
    obtain ⟨ds, h3, rfl, h5, h6⟩ := ih h2
    simp only [hf, hk] at h3
    refine ⟨d :: ds, .cons hd h3, rfl, ?_, ?_⟩
    · simp only [NoClash, List.map_cons, List.pairwise_cons, List.mem_cons, forall_eq_or_imp] at h5 ⊢
      obtain ⟨h5, h5'⟩ := h5
      have hkeys : ∀ r, r ∈ (CliState.layouts st₁).keys ↔ r ∈ d.2.1.keys ∨ r ∈ st.layouts.keys := by
        intro r
        have := hm2 r
        rw [mem_keys_iff, mem_keys_iff, mem_keys_iff, this]
        simp only [Option.isSome_or, Bool.or_eq_true]
      refine ⟨⟨fun r hr hr' => ?_, fun m hm r hr => h5 m hm r ((hkeys r).2 (.inr hr))⟩,
        fun m hm r hr => h5 m hm r ((hkeys r).2 (.inl hr)), h5'⟩
      exact lookup_none_iff.1 (hm1 r hr') hr
    · intro r
      rw [h6, List.map_cons, or_firstLookup, hm2]
      -- a definition of a later file is not one of this file
      cases hl : firstLookup (ds.map fun d => d.2.1) r with
      | none => simp
      | some x =>
        have : d.2.1.lookup r = none := by
          cases hd' : d.2.1.lookup r with
          | none => rfl
          | some y =>
            exfalso
            have h5' := (List.pairwise_cons.1 h5).1
            have h1 : r ∈ (CliState.layouts st₁).keys := by
              refine Classical.byContradiction fun hc => ?_
              have := lookup_none_iff.2 hc
              rw [hm2, hd'] at this
              cases this
            have h2 := firstLookup_none.2 fun m hm => h5' m hm r h1
            rw [hl] at h2
            cases h2
        simp [this]

/-- What each file defines is listed once. -/
def WellFormed (ds : List (FileDefs R)) : Prop := ∀ d ∈ ds, d.2.1.keys.Nodup

theorem buildAll_keys {debug : Bool} {fuel : Nat} : ∀ {es : List (R × Entry R)} {ls : LayoutMap R}, buildAll debug fuel es = .ok ls →
    ls.keys = es.map Prod.fst := by
  intro es
  induction es with
  | nil =>
    intro ls h
    simp only [buildAll, Out.ok.injEq] at h
    subst h
    rfl
  | cons x es ih =>
    intro ls h
    obtain ⟨r, e⟩ := x
    simp only [buildAll, Out.bind_eq_ok, Out.ok.injEq] at h
    obtain ⟨a, -, ls', hls, rfl⟩ := h
    simp only [LayoutMap.keys, List.map_cons, List.cons.injEq, true_and]
    exact ih hls

theorem ofTotal_eq_ok {ε α : Type} {x : Out Empty α} {a : α} : (Out.ofTotal x : Out ε α) = .ok a ↔ x = .ok a := by
  cases x with
  | err e => exact nomatch e
  | _ => simp [Out.ofTotal]

theorem loadDocument_ok {env : LoadEnv R} {n k : Nat} {j : Json} {d : FileDefs R} (h : loadDocument env n k j = .ok d) :
    ∃ l b, parseLayout env.parse j = .ok l ∧ l.buildWithContext env.ctx ⟨[], k⟩ = (.ok d.1, b) ∧
      buildAll env.debug env.fuel b.layouts = .ok d.2.1 ∧ b.next = d.2.2 := by
  simp only [loadDocument, Out.bind_eq_ok, Out.mapErr_eq_ok] at h
  obtain ⟨l, hl, h⟩ := h
  rcases hb : l.buildWithContext env.ctx ⟨[], k⟩ with ⟨o, b⟩
  rw [hb] at h
  cases o with
  | ok r =>
    simp only [Out.bind_eq_ok, ofTotal_eq_ok, Out.ok.injEq] at h
    obtain ⟨ls, h1, rfl⟩ := h
    exact ⟨l, b, hl, hb, h1, rfl⟩
  | err e => cases h
  | panic => cases h
  | fuel => cases h

theorem loadDocument_nodup {env : LoadEnv R} {n k : Nat} {j : Json} {d : FileDefs R} (h : loadDocument env n k j = .ok d) :
    d.2.1.keys.Nodup := by
  obtain ⟨l, b, -, hb, ha, -⟩ := loadDocument_ok h
  rw [buildAll_keys ha]
  exact (build_safe env.ctx l {} _ _ _ hb).nodup (by simp) (by simp)

theorem Loads.wellFormed {env : LoadEnv R} {n k : Nat} {fs : List SourceFile} {ds : List (FileDefs R)}
    (h : Loads env n k fs ds) : WellFormed ds := by
  induction h with
  | nil => simp [WellFormed]
  | cons h1 _ ih =>
    intro d hd
    rcases List.mem_cons.1 hd with rfl | hd
    · exact loadDocument_nodup h1
    · exact ih d hd

theorem Loads.length {env : LoadEnv R} {n k : Nat} {fs : List SourceFile} {ds : List (FileDefs R)}
    (h : Loads env n k fs ds) : ds.length = fs.length := by
  induction h with
  | nil => rfl
  | cons _ _ ih => simp [ih]

theorem Loads.unique {env : LoadEnv R} {n k : Nat} {fs : List SourceFile} {ds ds' : List (FileDefs R)}
    (h : Loads env n k fs ds) (h' : Loads env n k fs ds') : ds = ds' := by
  induction h generalizing ds' with
  | nil =>
    cases h'
    rfl
  | cons h1 _ ih =>
    cases h' with
    | cons h1' h2' =>
      rw [h1] at h1'
      injection h1' with h1'
      subst h1'
      rw [ih h2']

theorem Loads.append {env : LoadEnv R} {n k : Nat} {fs gs : List SourceFile} {ds : List (FileDefs R)}
    (h : Loads env n k (fs ++ gs) ds) : ∃ k' ds₁ ds₂, ds = ds₁ ++ ds₂ ∧ Loads env n k fs ds₁ ∧ Loads env (n + fs.length) k' gs ds₂ := by
  induction fs generalizing n k ds with
  | nil => exact ⟨k, [], ds, rfl, .nil, h⟩
  | cons f fs ih =>
    cases h with
    | cons h1 h2 =>
      obtain ⟨k', ds₁, ds₂, rfl, h3, h4⟩ := ih h2
      refine ⟨k', _ :: ds₁, ds₂, rfl, .cons h1 h3, ?_⟩
      rw [show n + (SourceFile.json _ :: fs).length = n + 1 + fs.length by simp; omega]
      exact h4

/-- Loading goes through, or it stops at the first file that redefines a layout. -/
theorem loadAll_loads {env : LoadEnv R} {fs : List SourceFile} : ∀ {st : CliState R} {ds : List (FileDefs R)},
    Loads env st.files st.next fs ds →
    (NoClash (st.layouts :: ds.map fun d => d.2.1) → ∃ r, loadAll env fs st = .ok r) ∧
    (¬ NoClash (st.layouts :: ds.map fun d => d.2.1) → st.layouts.keys.Nodup →
      ∃ i, i < fs.length ∧ loadAll env fs st = .err (.layoutBuild (st.files + i) .layoutRedefinition)) := by
  induction fs with
  | nil =>
    intro st ds h
    cases h
    refine ⟨fun _ => ⟨_, rfl⟩, fun h => absurd ?_ h⟩
    simp [NoClash]
  | cons f fs ih =>
    intro st ds h
    cases h with
    | @cons _ _ j _ d ds h1 h2 =>
      have hw := loadDocument_nodup h1
      by_cases hd : ∀ r ∈ d.2.1.keys, st.layouts.lookup r = none
      · obtain ⟨m, hm⟩ := insertLayouts_disjoint (le := env.ctx.le) hw hd
        obtain ⟨-, hm2⟩ := insertLayouts_ok hm
        have hkeys : ∀ r, r ∈ m.keys ↔ r ∈ d.2.1.keys ∨ r ∈ st.layouts.keys := by
          intro r
          rw [mem_keys_iff, mem_keys_iff, mem_keys_iff, hm2 r]
          simp only [Option.isSome_or, Bool.or_eq_true]
        have hl : loadLayout env st (.json j) = .ok (d.1, ⟨m, d.2.2, st.files + 1⟩) := by
          simp [loadLayout, h1, hm, Out.mapErr]
        have hnc : NoClash (m :: ds.map fun d => d.2.1) ↔ NoClash (st.layouts :: (d :: ds).map fun d => d.2.1) := by
          simp only [NoClash, List.map_cons, List.pairwise_cons, List.mem_cons, forall_eq_or_imp, hkeys]
          constructor
          · rintro ⟨h1, h2⟩
            exact ⟨⟨fun r hr hr' => lookup_none_iff.1 (hd r hr') hr, fun a ha r hr => h1 a ha r (.inr hr)⟩,
              fun a ha r hr => h1 a ha r (.inl hr), h2⟩
          · rintro ⟨⟨h1, h2⟩, h3, h4⟩
            exact ⟨fun a ha r hr => hr.elim (h3 a ha r) (h2 a ha r), h4⟩
        obtain ⟨ih1, ih2⟩ := ih (st := ⟨m, d.2.2, st.files + 1⟩) h2
        refine ⟨fun hn => ?_, fun hn hdup => ?_⟩
        · obtain ⟨r, hr⟩ := ih1 (hnc.2 hn)
          exact ⟨(d.1 :: r.1, r.2), by simp [loadAll, hl, hr]⟩
        · have hmn : m.keys.Nodup := by
            have : ∀ (new : LayoutMap R) (m m' : LayoutMap R), insertLayouts env.ctx.le new m = .ok m' → m.keys.Nodup → m'.keys.Nodup := by
              intro new
              induction new with
              | nil =>
                intro m m' h hm
                simp only [insertLayouts, Out.ok.injEq] at h
                subst h
                exact hm
              | cons x new ih =>
                intro m m' h hm
                obtain ⟨r, l⟩ := x
                simp only [insertLayouts] at h
                split at h
                · cases h
                · rename_i hn
                  have hn : m.lookup r = none := Option.not_isSome_iff_eq_none.1 hn
                  refine ih _ _ h ?_
                  simp only [LayoutMap.keys]
                  rw [((bmapInsert_perm env.ctx.le r l _ hn).map Prod.fst).nodup_iff, List.map_cons, List.nodup_cons]
                  exact ⟨lookup_none_iff.1 hn, hm⟩
            exact this _ _ _ hm hdup
          obtain ⟨i, hi, he⟩ := ih2 (fun h => hn (hnc.1 h)) hmn
          refine ⟨i + 1, by simpa using hi, ?_⟩
          simp only at he
          rw [show st.files + (i + 1) = st.files + 1 + i by omega]
          simp [loadAll, hl, he]
      · refine ⟨fun hn => absurd (fun r hr => ?_) hd, fun _ _ => ⟨0, by simp, ?_⟩⟩
        · simp only [NoClash, List.map_cons, List.pairwise_cons, List.mem_cons, forall_eq_or_imp] at hn
          refine lookup_none_iff.2 fun hc => ?_
          exact hn.1.1 r hc hr
        · have hm : insertLayouts env.ctx.le d.2.1 st.layouts = .err .layoutRedefinition := by
            rcases insertLayouts_total (le := env.ctx.le) (new := d.2.1) (m := st.layouts) with ⟨m', h⟩ | h
            · exact absurd (insertLayouts_ok h).1 hd
            · exact h
          simp [loadAll, loadLayout, h1, hm, Out.mapErr]

/-! ## Unnamed layouts -/

/-- What an unnamed definition defines has only generated identifiers. -/
theorem loadDocument_unnamed {env : LoadEnv R} {n k : Nat} {j : Json} {d : FileDefs R} (h : loadDocument env n k j = .ok d) :
    k ≤ d.2.2 ∧ ∀ r ∈ d.2.1.keys, (∃ l, parseLayout env.parse j = .ok l ∧ l.named = true ∧ ∃ i, r = env.ctx.iri i) ∨
      ∃ m, k ≤ m ∧ m < d.2.2 ∧ r = env.ctx.fresh m := by
  obtain ⟨l, b, hl, hb, ha, hk⟩ := loadDocument_ok h
  have hs := build_safe env.ctx l {} _ _ _ hb
  refine ⟨by rw [← hk]; exact hs.next, fun r hr => ?_⟩
  rw [buildAll_keys ha] at hr
  cases hlk : b.layouts.lookup r with
  | none => exact absurd hr (lookup_none_iff.1 hlk)
  | some e =>
    rcases hs.adds r e hlk with h | ⟨h, i, hi⟩ | ⟨m, h1, h2, h3⟩
    · simp at h
    · exact .inl ⟨l, hl, h, i, hi⟩
    · exact .inr ⟨m, h1, by rw [← hk]; exact h2, h3⟩

end Verif
