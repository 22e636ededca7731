import Verif.Rust
import Verif.LayoutSpec
import Verif.JsonLemmas
import Verif.SyntaxReorder
import Std.Data.String.ToNat

/-! # Lemmas about the Rust generator and the derive macros -/

set_option linter.unusedSectionVars false
set_option linter.unusedSimpArgs false

namespace Verif.Rust

variable {R : Type} [DecidableEq R]

/-! ## Names of variables -/

theorem toString_inj {m n : Nat} (h : toString m = toString n) : m = n := Nat.repr_injective h

theorem isVarName_toString (n : Nat) : isVarName (toString n) = true := by
  have hd : ∀ c ∈ (toString n).toList, c.isDigit = true := by
    intro c hc
    have : c ∈ Nat.toDigits 10 n := by
      simpa [toString, Nat.repr] using hc
    exact Nat.isDigit_of_mem_toDigits (by decide) (by decide) this
  rw [isVarName]
  split
  next c cs hcs =>
    rw [hcs] at hd
    simp only [Bool.and_eq_true, Bool.or_eq_true, List.all_eq_true]
    refine ⟨.inl (hd c (by simp)), fun x hx => ?_⟩
    simp [isPnChar, hd x (by simp [hx])]
  next h =>
    have : (Nat.toDigits 10 n).length = 0 := by
      have h' : (Nat.repr n).toList = [] := h
      rw [Nat.repr] at h'
      simpa using congrArg List.length h'
    exact absurd this (by
      have := Nat.length_toDigits_pos (b := 10) (n := n)
      omega)

theorem blankSuffix_var (n : Nat) : blankSuffix ("_:" ++ toString n) = toString n := by
  simp only [blankSuffix, String.toList_append]
  show String.ofList (toString n).toList = toString n
  exact String.ofList_toList

/-- The scope gives the name `i` to the `i`-th variable, and has no prefixes. -/
structure Numbered (s : Scope) (n : Nat) : Prop where
  prefixes : s.prefixes = []
  count : s.count = n
  vars : ∀ i < n, s.vars.lookup (toString i) = some i

theorem Numbered.bind {s : Scope} {n : Nat} (h : Numbered s n) : Numbered (s.bind (toString n)) (n + 1) where
  prefixes := h.prefixes
  count := by simp [Scope.bind, h.count]
  vars := by
    intro i hi
    simp only [Scope.bind, h.count, List.lookup]
    by_cases hin : i = n
    · subst hin
      simp
    · have : (toString i == toString n) = false := by
        simp only [beq_eq_false_iff_ne]
        exact fun e => hin (toString_inj e)
      rw [this]
      exact h.vars i (by omega)

theorem Numbered.withIntro {s : Scope} {n : Nat} (k : Nat) (h : Numbered s n) :
    Numbered (s.withIntro (varNames n k)) (n + k) := by
  induction k generalizing s n with
  | zero => simpa [varNames, Scope.withIntro] using h
  | succ k ih =>
    have := ih h.bind
    simp only [varNames, List.range'_succ, List.map_cons, Scope.withIntro, List.foldl_cons] at this ⊢
    rw [show n + (k + 1) = n + 1 + k by omega]
    exact this

theorem varNames_append (n a b : Nat) : varNames n a ++ varNames (n + a) b = varNames n (a + b) := by
  simp [varNames, ← List.map_append, List.range'_append_1]

theorem varNames_length (n k : Nat) : (varNames n k).length = k := by simp [varNames]

theorem asSlice_oneOrMany {α : Type} (l : List α) : (oneOrMany l).asSlice = l := by
  unfold oneOrMany
  split <;> rfl

theorem len_oneOrMany {α : Type} (l : List α) : (oneOrMany l).len = l.length := by
  unfold oneOrMany
  split <;> rfl

theorem isEmpty_oneOrMany {α : Type} (l : List α) : (oneOrMany l).isEmpty = l.isEmpty := by
  unfold oneOrMany
  split <;> rfl

/-! ## Lists of tokens -/

theorem parseList_commas {α : Type} (f : Tok → Out MacroError α) (ts : List Tok) :
    parseList f (commas (ts.map fun t => [t])) = Out.mapM' f ts := by
  induction ts with
  | nil => rfl
  | cons t ts ih =>
    cases ts with
    | nil =>
      simp only [List.map_cons, List.map_nil, commas, parseList, Out.mapM']
      cases f t <;> rfl
    | cons t' ts =>
      simp only [List.map_cons, commas, List.cons_append, List.nil_append, parseList] at ih ⊢
      rw [ih]
      rfl

theorem parseList_strings (l : List String) : parseList stringToken (strings l) = .ok l := by
  have : strings l = commas ((l.map Tok.str).map fun t => [t]) := by rw [strings, List.map_map]; rfl
  rw [this, parseList_commas, Out.mapM'_eq_ok]
  clear this
  induction l with
  | nil => exact .nil
  | cons s l ih => exact .cons rfl ih

/-- The step function goes through the given segments of tokens. -/
inductive Steps {α : Type} (step : α → Tok → List Tok → Out MacroError (α × List Tok)) : List (List Tok) → α → α → Prop
  | nil (a : α) : Steps step [] a a
  | cons {t : Tok} {ts : List Tok} {segs : List (List Tok)} {a b c : α} :
      (∀ more, step a t (ts ++ more) = .ok (b, more)) → Steps step segs b c → Steps step ((t :: ts) :: segs) a c

theorem attrLoop_commas {α : Type} {step : α → Tok → List Tok → Out MacroError (α × List Tok)} {segs : List (List Tok)} {a b : α}
    (h : Steps step segs a b) : ∀ n, (commas segs).length ≤ n → attrLoop step n a (commas segs) = .ok b := by
  induction h with
  | nil a => intro n _; cases n <;> rfl
  | @cons t ts segs a b c hs h ih =>
    intro n hn
    cases segs with
    | nil =>
      cases h
      simp only [commas, List.length_cons] at hn ⊢
      obtain ⟨m, rfl⟩ : ∃ m, n = m + 1 := ⟨n - 1, by omega⟩
      have := hs []
      rw [List.append_nil] at this
      simp [attrLoop, this]
    | cons s segs =>
      simp only [commas, List.cons_append, List.length_cons, List.length_append] at hn ⊢
      obtain ⟨m, rfl⟩ : ∃ m, n = m + 1 := ⟨n - 1, by omega⟩
      simp only [attrLoop, hs, Out.bind_ok]
      exact ih m (by omega)

theorem parseAttrs_tldr {α : Type} {step : α → Tok → List Tok → Out MacroError (α × List Tok)} {segs : List (List Tok)} {a b : α}
    (h : Steps step segs a b) : parseAttrs step [tldr segs] a = .ok b := by
  simp [parseAttrs, tldr, attrLoop_commas h _ (Nat.le_refl _)]

/-! ## Patterns -/

/-- What is needed of the interpretation of IRIs: variable names give blank node identifiers, and the IRI of a resource is an IRI,
not a blank node identifier, that denotes this resource; identifiers of types are IRIs. -/
structure Faithful (c : BuildCtx R) (g : GenCtx R) : Prop where
  blank : ∀ n : Nat, c.lib.isBlankId ("_:" ++ toString n) = true
  iri : ∀ r i rest, g.irisOf r = i :: rest →
    c.lib.isIri i = true ∧ c.lib.isIriRef i = true ∧ c.lib.isBlankId i = false ∧ c.iri i = r
  types : ∀ i, c.lib.isIri (typeIri i) = true

section

variable {c : BuildCtx R} {g : GenCtx R} (F : Faithful c g)
include F

theorem pattern_back {p : Pattern R} {id : String} (h : patternToId g p = .ok id) :
    ∃ sp, parsePattern c.lib id = .ok sp ∧ ∀ s n, Numbered s n → p.Below n → sp.build c s = .ok p := by
  cases p with
  | var i =>
    simp only [patternToId, Out.ok.injEq] at h
    subst h
    refine ⟨.var (toString i), ?_, fun s n hs hb => ?_⟩
    · simp only [parsePattern, F.blank, if_true, blankSuffix_var, isVarName_toString]
    · have := hs.vars i (hb i (by simp [Pattern.vars]))
      simp only [SPattern.build, Scope.index, this, Out.bind_ok]
  | res r =>
    simp only [patternToId] at h
    split at h
    next i rest hi =>
      injection h with h
      subst h
      obtain ⟨h1, h2, h3, h4⟩ := F.iri r _ _ hi
      refine ⟨.iri i, by simp [parsePattern, h2, h3], fun s n hs _ => ?_⟩
      simp [SPattern.build, resolve_plain hs.prefixes h1, h4]
    next => simp at h

theorem quad_back {q : QuadPat R} {t : Tok} (h : quadTok g q = .ok t) :
    ∃ sq, quadToken c.lib t = .ok sq ∧ ∀ s n, Numbered s n → (∀ x ∈ q.vars, x < n) → SQuad.build c s sq = .ok q := by
  obtain ⟨qs, qp, qo, qg⟩ := q
  simp only [quadTok, Out.bind_eq_ok] at h
  obtain ⟨s, hs, p, hp, o, ho, h⟩ := h
  obtain ⟨ss, ps, bs⟩ := pattern_back F hs
  obtain ⟨sp, pp, bp⟩ := pattern_back F hp
  obtain ⟨so, po, bo⟩ := pattern_back F ho
  have below : ∀ {n : Nat}, (∀ x ∈ QuadPat.vars ⟨qs, qp, qo, qg⟩, x < n) → qs.Below n ∧ qp.Below n ∧ qo.Below n ∧
      ∀ gr, qg = some gr → gr.Below n := by
    intro n hn
    refine ⟨fun x hx => hn x ?_, fun x hx => hn x ?_, fun x hx => hn x ?_, fun gr hg x hx => hn x ?_⟩ <;>
      simp_all [QuadPat.vars]
  cases qg with
  | none =>
    simp only [Out.ok.injEq] at h
    subst h
    refine ⟨⟨ss, sp, so, none⟩, by simp [quadToken, patternToken, stringToken, ps, pp, po], fun sc n hn hb => ?_⟩
    obtain ⟨h1, h2, h3, -⟩ := below hb
    simp [SQuad.build, optBuild, bs _ _ hn h1, bp _ _ hn h2, bo _ _ hn h3]
  | some gr =>
    simp only [Out.bind_eq_ok, Out.ok.injEq] at h
    obtain ⟨gi, hg, rfl⟩ := h
    obtain ⟨sg, pg, bg⟩ := pattern_back F hg
    refine ⟨⟨ss, sp, so, some sg⟩, by simp [quadToken, patternToken, stringToken, ps, pp, po, pg], fun sc n hn hb => ?_⟩
    obtain ⟨h1, h2, h3, h4⟩ := below hb
    simp [SQuad.build, optBuild, bs _ _ hn h1, bp _ _ hn h2, bo _ _ hn h3, bg _ _ hn (h4 gr rfl)]

/-! ## Datasets and values -/

omit F in
theorem dsInsert_last {le : QuadPat R → QuadPat R → Bool} (ht : TotalOrder le) (q : QuadPat R) (l : List (QuadPat R))
    (h : ∀ q' ∈ l, le q' q = true ∧ q' ≠ q) : dsInsert le q l = l ++ [q] := by
  induction l with
  | nil => rfl
  | cons q' l ih =>
    obtain ⟨h1, h2⟩ := h q' (by simp)
    have h3 : le q q' ≠ true := fun h3 => h2 (ht.antisymm _ _ h1 h3)
    simp [dsInsert, Ne.symm h2, h3, ih fun q'' hq => h q'' (by simp [hq])]

omit F in
theorem dataset_build (ht : TotalOrder c.leQ) {s : Scope} (sds : List (Quad SPattern)) (ds acc : List (QuadPat R))
    (h : List.Forall₂ (fun sq q => SQuad.build c s sq = .ok q) sds ds)
    (hp : (acc ++ ds).Pairwise fun a b => c.leQ a b = true ∧ a ≠ b) : SDataset.build c s sds acc = .ok (acc ++ ds) := by
  induction h generalizing acc with
  | nil => simp [SDataset.build]
  | @cons sq q sds ds hq h ih =>
    have : ∀ q' ∈ acc, c.leQ q' q = true ∧ q' ≠ q := by
      intro q' hq'
      exact (List.pairwise_append.1 hp).2.2 q' hq' q (by simp)
    simp only [SDataset.build, hq, Out.bind_ok]
    rw [dsInsert_last ht q acc this, ih (acc ++ [q]) (by simpa using hp)]
    simp

/-- The dataset is in strictly increasing order: a `BTreeDataset`. -/
abbrev SortedDs (c : BuildCtx R) (ds : List (QuadPat R)) : Prop := ds.Pairwise fun a b => c.leQ a b = true ∧ a ≠ b

theorem dataset_back (ht : TotalOrder c.leQ) {ds : List (QuadPat R)} {toks : List Tok} (h : datasetAttr g ds = .ok toks) :
    ∃ args sds, toks = call "dataset" args ∧ parseList (quadToken c.lib) args = .ok sds ∧
      ∀ s n, Numbered s n → PatsBelow n ds → SortedDs c ds → SDataset.build c s sds [] = .ok ds := by
  simp only [datasetAttr, Out.bind_eq_ok, Out.ok.injEq, Out.mapM'_eq_ok] at h
  obtain ⟨quads, hq, rfl⟩ := h
  have : ∃ sds, Out.mapM' (quadToken c.lib) quads = .ok sds ∧ ∀ s n, Numbered s n → PatsBelow n ds →
      List.Forall₂ (fun sq q => SQuad.build c s sq = .ok q) sds ds := by
    simp only [Out.mapM'_eq_ok]
    clear ht
    induction hq with
    | nil => exact ⟨[], .nil, fun _ _ _ _ => .nil⟩
    | @cons q t ds quads hq _ ih =>
      obtain ⟨sq, h1, h2⟩ := quad_back F hq
      obtain ⟨sds, h3, h4⟩ := ih
      refine ⟨sq :: sds, .cons h1 h3, fun s n hn hb => .cons (h2 s n hn fun x hx => hb x ?_) (h4 s n hn fun x hx => hb x ?_)⟩
      · simp [patsVars, hx]
      · simp only [patsVars, List.flatMap_cons, List.mem_append] at hx ⊢
        exact .inr hx
  obtain ⟨sds, h1, h2⟩ := this
  refine ⟨_, sds, rfl, by rw [parseList_commas, h1], fun s n hn hb hs => ?_⟩
  simpa using dataset_build ht sds ds [] (h2 s n hn hb) (by simpa using hs)

theorem inputs_back {ps : List (Pattern R)} {toks : List Tok} (h : valueInputAttr g ps = .ok toks) :
    ∃ args sps, toks = call "input" args ∧ parseList (patternToken c.lib) args = .ok sps ∧
      ∀ s n, Numbered s n → (∀ p ∈ ps, p.Below n) → buildInputs c s sps = .ok ps := by
  simp only [valueInputAttr, Out.bind_eq_ok, Out.ok.injEq, Out.mapM'_eq_ok] at h
  obtain ⟨ids, hq, rfl⟩ := h
  have : ∃ sps, Out.mapM' (patternToken c.lib) (ids.map Tok.str) = .ok sps ∧ ∀ s n, Numbered s n → (∀ p ∈ ps, p.Below n) →
      buildInputs c s sps = .ok ps := by
    simp only [Out.mapM'_eq_ok, buildInputs]
    induction hq with
    | nil => exact ⟨[], .nil, fun _ _ _ _ => .nil⟩
    | @cons p t ps ids hq _ ih =>
      obtain ⟨sp, h1, h2⟩ := pattern_back F hq
      obtain ⟨sps, h3, h4⟩ := ih
      refine ⟨sp :: sps, .cons (by simpa [patternToken, stringToken] using h1) h3, fun s n hn hb => .cons (h2 s n hn (hb _ (by simp)))
        (h4 s n hn fun x hx => hb x (by simp [hx]))⟩
  obtain ⟨sps, h1, h2⟩ := this
  refine ⟨_, sps, rfl, ?_, h2⟩
  have : strings ids = commas ((ids.map Tok.str).map fun t => [t]) := by rw [strings, List.map_map]; rfl
  rw [this, parseList_commas, h1]

theorem graph_back {gr : Option (Option (Pattern R))} {toks : List Tok} (h : valueGraphAttr g gr = .ok toks) :
    ∃ args sg, toks = call "graph" args ∧ parseGraph c.lib args = .ok sg ∧
      ∀ s n, Numbered s n → (∀ p, gr = some (some p) → p.Below n) → buildGraph c s sg = .ok gr := by
  match gr, h with
  | none, h =>
    simp only [valueGraphAttr, Out.ok.injEq] at h
    exact ⟨_, none, h.symm, by simp [parseGraph], fun _ _ _ _ => rfl⟩
  | some none, h =>
    simp only [valueGraphAttr, Out.ok.injEq] at h
    exact ⟨_, some none, h.symm, by simp [parseGraph], fun _ _ _ _ => rfl⟩
  | some (some p), h =>
    simp only [valueGraphAttr, Out.bind_eq_ok, Out.ok.injEq] at h
    obtain ⟨id, hp, rfl⟩ := h
    obtain ⟨sp, h1, h2⟩ := pattern_back F hp
    refine ⟨_, some (some sp), rfl, by simp [parseGraph, call, patternToken, stringToken, h1], fun s n hn hb => ?_⟩
    simp [buildGraph, h2 s n hn (hb p rfl)]

/-! ## Components -/

/-- What a component is read as, when it describes the value `v` with `intro` variables introduced in a scope of size `offset`,
and the dataset `ds`. -/
structure CompBack (c : BuildCtx R) (offset intro : Nat) (ds : List (QuadPat R)) (v : ValueFormat R) (a : CompAttrs) : Prop where
  intro : a.intro = some (varNames offset intro)
  property : a.property = none
  dataset : ∃ sds, a.dataset = some sds ∧
    ∀ s n, Numbered s n → PatsBelow n ds → SortedDs c ds → SDataset.build c s sds [] = .ok ds
  input : ∃ sps, a.input = some sps ∧ ∀ s n, Numbered s n → (∀ p ∈ v.input, p.Below n) → buildInputs c s sps = .ok v.input
  graph : ∃ sg, a.graph = some sg ∧
    ∀ s n, Numbered s n → (∀ p, v.graph = some (some p) → p.Below n) → buildGraph c s sg = .ok v.graph

theorem component_back (ht : TotalOrder c.leQ) {before : List (List Tok)} {offset intro : Nat} {ds : List (QuadPat R)}
    {v : ValueFormat R} {attr : RAttr} {t : RType} (h : componentAttr g before offset intro ds v = .ok (attr, t))
    {a₀ : CompAttrs} (hb : Steps (compStep c.lib) before {} a₀)
    (h0 : a₀.intro = none ∧ a₀.property = none ∧ a₀.dataset = none ∧ a₀.input = none ∧ a₀.graph = none) :
    layoutRef g v.layout = .ok t ∧ ∃ a, parseAttrs (compStep c.lib) [attr] {} = .ok a ∧ CompBack c offset intro ds v a ∧
      a.head = a₀.head ∧ a.rest = a₀.rest := by
  simp only [componentAttr, Out.bind_eq_ok, Out.ok.injEq, Prod.mk.injEq] at h
  obtain ⟨td, hd, ti, hi, tg, hg, t', hl, rfl, rfl⟩ := h
  obtain ⟨ad, sds, rfl, pd, bd⟩ := dataset_back F ht hd
  obtain ⟨ai, sps, rfl, pi, bi⟩ := inputs_back F hi
  obtain ⟨ag, sg, rfl, pg, bg⟩ := graph_back F hg
  obtain ⟨z1, z2, z3, z4, z5⟩ := h0
  refine ⟨hl, { a₀ with intro := some (varNames offset intro), dataset := some sds, input := some sps, graph := some sg }, ?_, ?_, rfl,
    rfl⟩
  · apply parseAttrs_tldr
    have append : ∀ {x y z : CompAttrs} {l l' : List (List Tok)}, Steps (compStep c.lib) l x y → Steps (compStep c.lib) l' y z →
        Steps (compStep c.lib) (l ++ l') x z := by
      intro x y z l l' h1 h2
      induction h1 with
      | nil _ => exact h2
      | cons h _ ih => exact .cons h (ih h2)
    refine append hb (.cons (b := { a₀ with intro := some (varNames offset intro) }) ?_
      (.cons (b := { a₀ with intro := some (varNames offset intro), dataset := some sds }) ?_
      (.cons (b := { a₀ with intro := some (varNames offset intro), dataset := some sds, input := some sps }) ?_
      (.cons ?_ (.nil _)))))
    · intro more
      simp [compStep, expectArgument, parseList_strings, z1, replace]
    · intro more
      simp [compStep, expectArgument, pd, z3, replace]
    · intro more
      simp [compStep, expectArgument, pi, z4, replace]
    · intro more
      simp [compStep, expectArgument, pg, z5, replace]
  · exact ⟨rfl, z2, ⟨_, rfl, bd⟩, ⟨_, rfl, bi⟩, ⟨_, rfl, bg⟩⟩

/-! ## Building -/

omit F in
theorem bind_pure_eq {α β : Type} (a : α) (f : α → BuildM R β) : (BuildM.pure a : BuildM R α).bind f = f a := rfl

omit F in
theorem lift_ok_eq {α : Type} (a : α) : (BuildM.lift (.ok a) : BuildM R α) = BuildM.pure a := rfl

theorem value_build {offset intro n : Nat} {ds : List (QuadPat R)} {v : ValueFormat R} {a : CompAttrs}
    (h : CompBack c offset intro ds v a) {s : Scope} (hs : Numbered s n) (hv : v.Below n) (d d' : String) (i : Nat) :
    (a.value d i).build c d' s = BuildM.pure ⟨c.iri (typeIri i), v.input, v.graph⟩ := by
  obtain ⟨sps, hi, bi⟩ := h.input
  obtain ⟨sg, hg, bg⟩ := h.graph
  simp only [CompAttrs.value, hi, hg, Option.map_some, Option.getD_some, SFormat.build, asSlice_oneOrMany, bi s n hs hv.1,
    bg s n hs hv.2, lift_ok_eq, bind_pure_eq, SLayoutRef.build, CompactIri.build]
  rw [resolve_plain (s := s.withoutVariables) hs.prefixes (F.types i)]
  rfl

omit F in
theorem comp_dataset {offset intro n : Nat} {ds : List (QuadPat R)} {v : ValueFormat R} {a : CompAttrs}
    (h : CompBack c offset intro ds v a) {s : Scope} (hs : Numbered s n) (hb : PatsBelow n ds) (ho : SortedDs c ds) :
    SDataset.build c s (a.dataset.getD []) [] = .ok ds := by
  obtain ⟨sds, hd, bd⟩ := h.dataset
  simp [hd, bd s n hs hb ho]

omit F in
theorem comp_intro {offset intro : Nat} {ds : List (QuadPat R)} {v : ValueFormat R} {a : CompAttrs}
    (h : CompBack c offset intro ds v a) : a.valueIntro = oneOrMany (varNames offset intro) := by
  simp [CompAttrs.valueIntro, h.intro]

omit F in
theorem presetTypes_required : ∀ p ∈ presetTypes, fieldType p.2 = (p.2, true) := by
  intro p hp
  simp only [presetTypes, List.mem_cons, List.not_mem_nil, or_false] at hp
  obtain rfl | rfl | rfl | rfl | rfl | rfl | rfl | rfl | rfl | rfl | rfl | rfl := hp <;> rfl

omit F in
theorem layoutRef_required {r : R} {t : RType} (h : layoutRef g r = .ok t) : fieldType t = (t, true) := by
  have hp : ∀ i t, presetType i = some t → fieldType t = (t, true) := by
    intro i t ht
    simp only [presetType, Option.map_eq_some_iff] at ht
    obtain ⟨p, hp, rfl⟩ := ht
    exact presetTypes_required p (List.mem_of_find?_eq_some hp)
  have hl : ∀ is path t, layoutRefLoop g is path = .inl t → fieldType t = (t, true) := by
    intro is
    induction is with
    | nil => intro path t ht; simp [layoutRefLoop] at ht
    | cons i is ih =>
      intro path t ht
      simp only [layoutRefLoop] at ht
      split at ht
      next t' ht' =>
        injection ht with ht
        subst ht
        exact hp _ _ ht'
      next => exact ih _ _ ht
  simp only [layoutRef] at h
  split at h
  next t' ht =>
    injection h with h
    subst h
    exact hl _ _ _ ht
  next path _ =>
    simp only [Out.bind_eq_ok, Out.ok.injEq] at h
    obtain ⟨id, -, rfl⟩ := h
    rw [fieldType]
    intro t' h
    simp at h

/-- The value with the reference to the `i`-th type. -/
def withType (c : BuildCtx R) (i : Nat) (v : ValueFormat R) : ValueFormat R := { v with layout := c.iri (typeIri i) }

/-- The fields with references to types, from the `k`-th, all required. -/
def fieldsWith (c : BuildCtx R) : Nat → List (Value × Field R) → List (Value × Field R)
  | _, [] => []
  | k, (n, f) :: fs => (n, { f with value := withType c k f.value, required := true }) :: fieldsWith c (k + 1) fs

/-- The variants with references to types, from the `k`-th. -/
def variantsWith (c : BuildCtx R) : Nat → List (Variant R) → List (Variant R)
  | _, [] => []
  | k, v :: vs => { v with value := withType c k v.value } :: variantsWith c (k + 1) vs

/-- The items with references to types, from the `k`-th. -/
def itemsWith (c : BuildCtx R) : Nat → List (ItemLayout R) → List (ItemLayout R)
  | _, [] => []
  | k, i :: is => { i with value := withType c k i.value } :: itemsWith c (k + 1) is

theorem fields_back (ht : TotalOrder c.leQ) {offset : Nat} {fs : List (Value × Field R)} {rfs : List (String × List RAttr × RType)}
    (h : List.Forall₂ (fun e r => fieldOf g offset e = .ok r) fs rfs)
    (hn : ∀ e ∈ fs, ∃ name, e.1 = .text name ∧ g.parseIdent name = some name) :
    ∀ ts₀, ∃ sfs types, parseFields c.lib rfs ts₀ = .ok (sfs, ts₀ ++ types) ∧
      List.Forall₂ (fun e t => layoutRef g e.2.value.layout = .ok t) fs types ∧
      sfs.map (fun e => Value.text e.1) = fs.map (fun e => e.1) ∧
      ∀ s, Numbered s offset →
        (∀ e ∈ fs, PatsBelow (offset + e.2.intro) e.2.dataset ∧ e.2.value.Below (offset + e.2.intro) ∧ SortedDs c e.2.dataset) →
        ∀ subject count, buildFields c subject count (sfs.map fun e => (.text e.1, e.2)) s =
          BuildM.pure (fieldsWith c ts₀.length fs) := by
  induction h with
  | nil => exact fun ts₀ => ⟨[], [], by simp [parseFields], .nil, rfl, fun _ _ _ _ _ => by simp [buildFields, fieldsWith]⟩
  | @cons e r fs rfs he _ ih =>
    intro ts₀
    obtain ⟨name', f⟩ := e
    obtain ⟨name, rfl, hid⟩ := hn (name', f) (by simp)
    simp only [fieldOf, Value.text] at he
    rw [hid] at he
    simp only [Out.bind_eq_ok, Out.ok.injEq, Prod.exists] at he
    obtain ⟨attr, t, he, rfl⟩ := he
    obtain ⟨hl, a, ha, hb, -, -⟩ := component_back F ht he (.nil _) ⟨rfl, rfl, rfl, rfl, rfl⟩
    obtain ⟨sfs, types, h1, h2, h3, h4⟩ := ih (fun e he => hn e (by simp [he])) (ts₀ ++ [t])
    have htt := layoutRef_required hl
    refine ⟨_, t :: types, by simp only [parseFields, ha, Out.bind_ok, htt, h1]; rw [List.append_assoc]; rfl, .cons hl h2, ?_, ?_⟩
    · simp [h3]
    · intro s hs hc subject count
      obtain ⟨c1, c2, c3⟩ := hc (.text name, f) (by simp)
      have hs' := hs.withIntro f.intro
      simp only [List.map_cons, buildFields, SField.build, comp_intro hb, asSlice_oneOrMany, hb.property, buildPropDataset,
        comp_dataset hb hs' c1 c3, lift_ok_eq, bind_pure_eq, value_build F hb hs' c2, h4 s hs fun e he => hc e (by simp [he]),
        len_oneOrMany, varNames_length]
      simp only [fieldsWith, withType, List.length_append, List.length_singleton]

theorem variants_back (ht : TotalOrder c.leQ) {offset : Nat} {vs : List (Variant R)} {rvs : List (String × List RAttr × RFields)}
    (h : List.Forall₂ (fun e r => variantOf g offset e = .ok r) vs rvs) (hn : ∀ v ∈ vs, g.parseIdent v.name = some v.name) :
    ∀ ts₀, ∃ svs types, parseVariants c.lib rvs ts₀ = .ok (svs, ts₀ ++ types) ∧
      List.Forall₂ (fun v t => layoutRef g v.value.layout = .ok t) vs types ∧
      svs.map (fun e => e.1) = vs.map (fun v => v.name) ∧
      ∀ s, Numbered s offset →
        (∀ v ∈ vs, PatsBelow (offset + v.intro) v.dataset ∧ v.value.Below (offset + v.intro) ∧ SortedDs c v.dataset) →
        buildVariants c svs s = BuildM.pure (variantsWith c ts₀.length vs) := by
  induction h with
  | nil => exact fun ts₀ => ⟨[], [], by simp [parseVariants], .nil, rfl, fun _ _ _ => by simp [buildVariants, variantsWith]⟩
  | @cons v r vs rvs he _ ih =>
    intro ts₀
    have hid := hn v (by simp)
    simp only [variantOf, hid, Out.bind_eq_ok, Out.ok.injEq, Prod.exists] at he
    obtain ⟨attr, t, he, rfl⟩ := he
    obtain ⟨hl, a, ha, hb, -, -⟩ := component_back F ht he (.nil _) ⟨rfl, rfl, rfl, rfl, rfl⟩
    obtain ⟨svs, types, h1, h2, h3, h4⟩ := ih (fun e he => hn e (by simp [he])) (ts₀ ++ [t])
    refine ⟨_, t :: types, by simp only [parseVariants, ha, Out.bind_ok, h1]; rw [List.append_assoc]; rfl, .cons hl h2, ?_, ?_⟩
    · simp [h3]
    · intro s hs hc
      obtain ⟨c1, c2, c3⟩ := hc v (by simp)
      have hs' := hs.withIntro v.intro
      simp only [List.map_cons, buildVariants, SVariant.build, hb.intro, Option.map_some, Option.getD_some, asSlice_oneOrMany,
        comp_dataset hb hs' c1 c3, lift_ok_eq, bind_pure_eq, value_build F hb hs' c2, h4 s hs fun e he => hc e (by simp [he]),
        len_oneOrMany, varNames_length]
      simp only [variantsWith, withType, List.length_append, List.length_singleton]

theorem item_build (ht : TotalOrder c.leQ) {offset : Nat} {i : ItemLayout R} {attr : RAttr} {t : RType}
    (h : componentAttr g [] offset i.intro i.dataset i.value = .ok (attr, t)) :
    layoutRef g i.value.layout = .ok t ∧ ∃ a, parseAttrs (compStep c.lib) [attr] {} = .ok a ∧ a.property = none ∧
      ∀ s, Numbered s offset → i.Closed (offset + i.intro) → SortedDs c i.dataset → ∀ subject k,
        (SItem.mk a.valueIntro (a.value "value" k) (a.dataset.getD []) none).build c subject s =
          BuildM.pure { i with value := withType c k i.value } := by
  obtain ⟨hl, a, ha, hb, -, -⟩ := component_back F ht h (.nil _) ⟨rfl, rfl, rfl, rfl, rfl⟩
  refine ⟨hl, a, ha, hb.property, fun s hs hc ho subject k => ?_⟩
  have hs' := hs.withIntro i.intro
  simp only [SItem.build, comp_intro hb, asSlice_oneOrMany, buildPropDataset, comp_dataset hb hs' hc.1 ho, lift_ok_eq, bind_pure_eq,
    value_build F hb hs' hc.2, len_oneOrMany, varNames_length]
  rfl

theorem items_back (ht : TotalOrder c.leQ) {offset : Nat} {is : List (ItemLayout R)} {ris : List (List RAttr × RType)}
    (h : List.Forall₂ (fun e r => itemOf g offset e = .ok r) is ris) :
    ∀ ts₀, ∃ sis types, parseItems c.lib ris ts₀ = .ok (sis, ts₀ ++ types) ∧
      List.Forall₂ (fun i t => layoutRef g i.value.layout = .ok t) is types ∧
      ∀ s, Numbered s offset → (∀ i ∈ is, i.Closed (offset + i.intro) ∧ SortedDs c i.dataset) →
        ∀ subject, buildItems c subject sis s = BuildM.pure (itemsWith c ts₀.length is) := by
  induction h with
  | nil => exact fun ts₀ => ⟨[], [], by simp [parseItems], .nil, fun _ _ _ _ => by simp [buildItems, itemsWith]⟩
  | @cons i r is ris he _ ih =>
    intro ts₀
    simp only [itemOf, Out.bind_eq_ok, Out.ok.injEq, Prod.exists] at he
    obtain ⟨attr, t, he, rfl⟩ := he
    obtain ⟨hl, a, ha, hp, hb⟩ := item_build F ht he
    obtain ⟨sis, types, h1, h2, h4⟩ := ih (ts₀ ++ [t])
    refine ⟨_, t :: types, by simp only [parseItems, ha, Out.bind_ok, h1]; rw [List.append_assoc]; rfl, .cons hl h2, ?_⟩
    intro s hs hc subject
    obtain ⟨c1, c2⟩ := hc i (by simp)
    simp only [buildItems, hp, hb s hs c1 c2, bind_pure_eq, h4 s hs fun e he => hc e (by simp [he])]
    simp only [itemsWith, withType, List.length_append, List.length_singleton]

/-! ## Types -/

omit F in
theorem bmapInsert_last' {κ α : Type} [DecidableEq κ] {le : κ → κ → Bool} (ht : TotalOrder le) (m : List (κ × α)) (k : κ) (v : α)
    (h : ∀ e ∈ m, le e.1 k = true ∧ e.1 ≠ k) : bmapInsert le k v m = m ++ [(k, v)] := by
  induction m with
  | nil => rfl
  | cons e m ih =>
    obtain ⟨h1, h2⟩ := h e (by simp)
    have h3 : le k e.1 ≠ true := fun h3 => h2 (ht.antisymm _ _ h1 h3)
    simp [bmapInsert, Ne.symm h2, h3, ih fun e he => h e (by simp [he])]

omit F in
theorem collect_sorted {α : Type} (l : List (String × α)) (h : (l.map (·.1)).Pairwise fun a b => strLe a b = true ∧ a ≠ b) :
    collect l = l := by
  have key : ∀ (l acc : List (String × α)), ((acc ++ l).map (·.1)).Pairwise (fun a b => strLe a b = true ∧ a ≠ b) →
      l.foldl (fun m e => bmapInsert strLe e.1 e.2 m) acc = acc ++ l := by
    intro l
    induction l with
    | nil => simp
    | cons e l ih =>
      intro acc h
      rw [List.foldl_cons, bmapInsert_last' strLe_totalOrder, ih (acc ++ [e])]
      · simp
      · simpa using h
      · intro e' he'
        simp only [List.map_append, List.map_cons, List.pairwise_append] at h
        exact h.2.2 e'.1 (List.mem_map.2 ⟨e', he', rfl⟩) e.1 (by simp)
  exact key l [] (by simpa using h)

/-- What the attributes of a type are read as. -/
structure TypeBack (c : BuildCtx R) (input intro : Nat) (ds : List (QuadPat R)) (a : TypeAttrs) : Prop where
  base : a.base = none
  prefixes : a.prefixes = []
  id : a.id = none
  inputs : a.input = some (varNames 0 input)
  intros : a.intro = some (varNames input intro)
  resource : a.resource = none
  dataset : ∃ sds, a.dataset = some sds ∧
    ∀ s n, Numbered s n → PatsBelow n ds → SortedDs c ds → SDataset.build c s sds [] = .ok ds

omit F in
theorem header_back {input intro : Nat} {ds : List (QuadPat R)} {a : TypeAttrs} (h : TypeBack c input intro ds a)
    (hb : PatsBelow (input + intro) ds) (ho : SortedDs c ds) :
    ∃ s, Numbered s (input + intro) ∧ a.header.build c {} = .ok ⟨input, intro, ds, [], s⟩ := by
  obtain ⟨sds, hd, bd⟩ := h.dataset
  have h0 : Numbered ({} : Scope) 0 := ⟨rfl, rfl, fun i hi => absurd hi (by omega)⟩
  have hs : Numbered (({} : Scope).withIntro (varNames 0 input ++ varNames input intro)) (input + intro) := by
    have := h0.withIntro (input + intro)
    rw [← varNames_append, Nat.zero_add] at this
    simpa using this
  refine ⟨_, hs, ?_⟩
  simp only [LayoutHeader.build, Scope.withHeader, TypeAttrs.header, h.base, Scope.newBase, h.prefixes, Scope.newPrefixes, h.inputs,
    h.intros, Option.map_some, Option.getD_some, asSlice_oneOrMany, Out.bind_ok, hd, len_oneOrMany, varNames_length, buildExtra]
  rw [bd _ _ hs hb ho]
  rfl

omit F in
/-- The layout that is derived, once its contents are known. -/
theorem derive_of {fuel : Nat} {debug : Bool} {item : RItem} {sl : SLayout} {types : List RType} {al : AbsLayout R} {l : Layout R}
    (h1 : parseItem c.lib item = .ok (sl, types)) (h2 : sl.layoutId = none)
    (h3 : sl.buildBody c {} = BuildM.pure ⟨al, []⟩) (h4 : al.build debug fuel = .ok l) :
    derive c.lib c debug fuel item = .ok (l, types) := by
  simp [derive, h1, Out.mapErr, SLayout.buildTop, SLayout.buildWithContext, SLayout.build, defineLayout, h2, h3, buildId, anonymous,
    BuildM.bind, BuildM.pure, insertLayout, List.lookup, bmapInsert, buildAll, h4]

/-! ## The layout derived from what is generated -/

omit F in
theorem Steps.append {α : Type} {step : α → Tok → List Tok → Out MacroError (α × List Tok)} {x y z : α} {l l' : List (List Tok)}
    (h1 : Steps step l x y) (h2 : Steps step l' y z) : Steps step (l ++ l') x z := by
  induction h1 with
  | nil _ => exact h2
  | cons h _ ih => exact .cons h (ih h2)

/-- No attribute other than the kind has been read. -/
def Clean (a : TypeAttrs) : Prop := a = { kind := a.kind }

omit F in
theorem steps_kind (n : String) (k : Kind) (h : Kind.ofIdent n = some k) :
    Steps (typeStep c.lib) [[.ident n]] {} { kind := some k } :=
  .cons (by intro more; simp [typeStep, h, replace]) (.nil _)

theorem attrs_plain (ht : TotalOrder c.leQ) {pre : List (List Tok)} {k : Option Kind}
    (hp : Steps (typeStep c.lib) pre {} { kind := k }) {input intro : Nat} {ds : List (QuadPat R)} {td : List Tok}
    (hd : datasetAttr g ds = .ok td) :
    ∃ a, parseAttrs (typeStep c.lib) [tldr (pre ++ [inputAttr input, introAttr intro input, td])] {} = .ok a ∧
      TypeBack c input intro ds a ∧ a.kind = k := by
  obtain ⟨ad, sds, rfl, pd, bd⟩ := dataset_back F ht hd
  refine ⟨{ kind := k, input := some (varNames 0 input), intro := some (varNames input intro), dataset := some sds }, ?_,
    ⟨rfl, rfl, rfl, rfl, rfl, rfl, sds, rfl, bd⟩, rfl⟩
  apply parseAttrs_tldr
  refine hp.append (.cons (b := { kind := k, input := some (varNames 0 input) }) ?_
    (.cons (b := { kind := k, input := some (varNames 0 input), intro := some (varNames input intro) }) ?_ (.cons ?_ (.nil _))))
  · intro more
    simp [typeStep, Kind.ofIdent, expectArgument, parseList_strings, replace]
  · intro more
    simp [typeStep, Kind.ofIdent, expectArgument, parseList_strings, replace]
  · intro more
    simp [typeStep, Kind.ofIdent, expectArgument, pd, replace]

theorem attrs_list (ht : TotalOrder c.leQ) {pre : List (List Tok)} {k : Option Kind}
    (hp : Steps (typeStep c.lib) pre {} { kind := k }) {input intro : Nat} {ds : List (QuadPat R)} {td : List Tok}
    (hd : datasetAttr g ds = .ok td) :
    ∃ a, parseAttrs (typeStep c.lib) [tldr (pre ++ [introAttr intro input, td, inputAttr input])] {} = .ok a ∧
      TypeBack c input intro ds a ∧ a.kind = k := by
  obtain ⟨ad, sds, rfl, pd, bd⟩ := dataset_back F ht hd
  refine ⟨{ kind := k, input := some (varNames 0 input), intro := some (varNames input intro), dataset := some sds }, ?_,
    ⟨rfl, rfl, rfl, rfl, rfl, rfl, sds, rfl, bd⟩, rfl⟩
  apply parseAttrs_tldr
  refine hp.append (.cons (b := { kind := k, intro := some (varNames input intro) }) ?_
    (.cons (b := { kind := k, intro := some (varNames input intro), dataset := some sds }) ?_ (.cons ?_ (.nil _))))
  · intro more
    simp [typeStep, Kind.ofIdent, expectArgument, parseList_strings, replace]
  · intro more
    simp [typeStep, Kind.ofIdent, expectArgument, pd, replace]
  · intro more
    simp [typeStep, Kind.ofIdent, expectArgument, parseList_strings, replace]

theorem derived_unit (ht : TotalOrder c.leQ) {reg : Registry R} {r : R} {l : UnitLayout R} {item : RItem}
    (hr : reg r = some (.unit l)) (hg : generate g reg r = .ok (.item item)) (hb : PatsBelow (l.input + l.intro) l.dataset)
    (ho : SortedDs c l.dataset) (debug : Bool) (fuel : Nat) :
    derive c.lib c debug fuel item = .ok (.unit { l with const := .unit }, []) := by
  simp only [generate, hr, Out.bind_eq_ok, literalItem, Out.ok.injEq, Generated.item.injEq] at hg
  obtain ⟨ident, -, td, hd, rfl⟩ := hg
  obtain ⟨a, ha, hT, hk⟩ := attrs_plain F ht (.nil _) hd (input := l.input) (intro := l.intro)
  obtain ⟨s, hs, hh⟩ := header_back hT hb ho
  have hp : parseItem c.lib ⟨ident, [tldr ([] ++ [inputAttr l.input, introAttr l.intro l.input, td])], .struct .unit⟩ =
      .ok (.unit a.header .unit, []) := by
    simp only [parseItem, ha, Out.bind_ok, hk, Kind.ofData, parseKind]
  refine derive_of hp (by simp [SLayout.layoutId, TypeAttrs.header, hT.id]) (al := .unit { l with const := .unit }) ?_ rfl
  simp only [SLayout.buildBody, hh, lift_ok_eq, bind_pure_eq]

theorem derived_id (ht : TotalOrder c.leQ) {reg : Registry R} {r : R} {l : IdLayout R} {item : RItem}
    (hr : reg r = some (.id l)) (hg : generate g reg r = .ok (.item item)) (hb : PatsBelow (l.input + l.intro) l.dataset)
    (ho : SortedDs c l.dataset) (hi : 1 ≤ l.input) (debug : Bool) (fuel : Nat) :
    derive c.lib c debug fuel item = .ok (.id { l with pattern := none, resource := .var 0 }, []) := by
  simp only [generate, hr, Out.bind_eq_ok, literalItem, Out.ok.injEq, Generated.item.injEq] at hg
  obtain ⟨ident, -, td, hd, rfl⟩ := hg
  obtain ⟨a, ha, hT, hk⟩ := attrs_plain F ht (steps_kind "id" .id (by decide)) hd (input := l.input) (intro := l.intro)
  obtain ⟨s, hs, hh⟩ := header_back hT hb ho
  have hp : parseItem c.lib ⟨ident, [tldr ([[.ident "id"]] ++ [inputAttr l.input, introAttr l.intro l.input, td])],
      .struct (.unnamed [([], .path [] "Id" [])])⟩ = .ok (.id a.header none none, []) := by
    simp only [parseItem, ha, Out.bind_ok, hk, parseKind, hT.resource]
  refine derive_of hp (by simp [SLayout.layoutId, TypeAttrs.header, hT.id])
    (al := .id l.input l.intro l.dataset none (.var 0)) ?_ rfl
  have he : a.header.input.isEmpty = false := by
    simp only [TypeAttrs.header, hT.inputs, Option.map_some, Option.getD_some, isEmpty_oneOrMany]
    have := varNames_length 0 l.input
    cases hv : varNames 0 l.input with
    | nil => simp [hv] at this; omega
    | cons _ _ => rfl
  simp only [SLayout.buildBody, hh, lift_ok_eq, bind_pure_eq, literalResource, he, Bool.false_eq_true, if_false]

theorem derived_product (ht : TotalOrder c.leQ) {reg : Registry R} {r : R} {l : ProductLayout R} {item : RItem}
    (hr : reg r = some (.product l)) (hg : generate g reg r = .ok (.item item)) (hc : Layout.Closed (.product l))
    (ho : SortedDs c l.dataset) (hof : ∀ e ∈ l.fields, SortedDs c e.2.dataset)
    (hk : (l.fields.map (·.1)).Pairwise fun a b => Value.le a b = true ∧ a ≠ b)
    (hn : ∀ e ∈ l.fields, ∃ name, e.1 = .text name ∧ g.parseIdent name = some name) (debug : Bool) (fuel : Nat) :
    ∃ types, derive c.lib c debug fuel item = .ok (.product { l with fields := fieldsWith c 0 l.fields }, types) ∧
      List.Forall₂ (fun e t => layoutRef g e.2.value.layout = .ok t) l.fields types := by
  simp only [generate, hr, Out.bind_eq_ok, Out.ok.injEq, Generated.item.injEq, Out.mapM'_eq_ok] at hg
  obtain ⟨ident, -, td, hd, rfs, hf, rfl⟩ := hg
  obtain ⟨a, ha, hT, hkind⟩ := attrs_plain F ht (.nil _) hd (input := l.input) (intro := l.intro)
  obtain ⟨s, hs, hh⟩ := header_back hT hc.1 ho
  obtain ⟨sfs, types, h1, h2, h3, h4⟩ := fields_back F ht hf hn []
  have hcol : collect sfs = sfs := by
    refine collect_sorted sfs ?_
    rw [← h3, List.pairwise_map] at hk
    rw [List.pairwise_map]
    refine hk.imp ?_
    rintro ⟨x, _⟩ ⟨y, _⟩ ⟨hx, hy⟩
    exact ⟨hx, fun e => hy (by simp only at e; rw [e])⟩
  have hp : parseItem c.lib ⟨ident, [tldr ([] ++ [inputAttr l.input, introAttr l.intro l.input, td])], .struct (.named rfs)⟩ =
      .ok (.product a.header (sfs.map fun e => (.text e.1, e.2)), types) := by
    simp only [parseItem, ha, Out.bind_ok, hkind, Kind.ofData, parseKind, h1, hcol]; rw [List.nil_append]
  refine ⟨types, derive_of hp (by simp [SLayout.layoutId, TypeAttrs.header, hT.id])
    (al := .product { l with fields := fieldsWith c 0 l.fields }) ?_ rfl, h2⟩
  simp only [SLayout.buildBody, hh, lift_ok_eq, bind_pure_eq]
  rw [h4 s hs fun e he => ⟨(hc.2 e he).1, (hc.2 e he).2, hof e he⟩]
  rfl

theorem derived_sum (ht : TotalOrder c.leQ) {reg : Registry R} {r : R} {l : SumLayout R} {item : RItem}
    (hr : reg r = some (.sum l)) (hg : generate g reg r = .ok (.item item)) (hc : Layout.Closed (.sum l))
    (ho : SortedDs c l.dataset) (hof : ∀ v ∈ l.variants, SortedDs c v.dataset)
    (hk : (l.variants.map (·.name)).Pairwise fun a b => strLe a b = true ∧ a ≠ b)
    (hn : ∀ v ∈ l.variants, g.parseIdent v.name = some v.name) (debug : Bool) (fuel : Nat) :
    ∃ types, derive c.lib c debug fuel item = .ok (.sum { l with variants := variantsWith c 0 l.variants }, types) ∧
      List.Forall₂ (fun v t => layoutRef g v.value.layout = .ok t) l.variants types := by
  simp only [generate, hr, Out.bind_eq_ok, Out.ok.injEq, Generated.item.injEq, Out.mapM'_eq_ok] at hg
  obtain ⟨ident, -, td, hd, rfs, hf, rfl⟩ := hg
  obtain ⟨a, ha, hT, hkind⟩ := attrs_plain F ht (.nil _) hd (input := l.input) (intro := l.intro)
  obtain ⟨s, hs, hh⟩ := header_back hT hc.1 ho
  obtain ⟨svs, types, h1, h2, h3, h4⟩ := variants_back F ht hf hn []
  have hcol : collect svs = svs := collect_sorted svs (by rw [h3]; exact hk)
  have hp : parseItem c.lib ⟨ident, [tldr ([] ++ [inputAttr l.input, introAttr l.intro l.input, td])], .enum rfs⟩ =
      .ok (.sum a.header svs, types) := by
    simp only [parseItem, ha, Out.bind_ok, hkind, Kind.ofData, parseKind, h1, hcol]; rw [List.nil_append]
  refine ⟨types, derive_of hp (by simp [SLayout.layoutId, TypeAttrs.header, hT.id])
    (al := .sum { l with variants := variantsWith c 0 l.variants }) ?_ rfl, h2⟩
  simp only [SLayout.buildBody, hh, lift_ok_eq, bind_pure_eq]
  rw [h4 s hs fun e he => ⟨(hc.2 e he).1, (hc.2 e he).2, hof e he⟩]
  rfl

theorem derived_sized (ht : TotalOrder c.leQ) {reg : Registry R} {r : R} {l : SizedLayout R} {item : RItem}
    (hr : reg r = some (.sized l)) (hg : generate g reg r = .ok (.item item)) (hc : Layout.Closed (.sized l))
    (ho : SortedDs c l.dataset) (hof : ∀ i ∈ l.items, SortedDs c i.dataset) (debug : Bool) (fuel : Nat) :
    ∃ types, derive c.lib c debug fuel item = .ok (.sized { l with items := itemsWith c 0 l.items }, types) ∧
      List.Forall₂ (fun i t => layoutRef g i.value.layout = .ok t) l.items types := by
  simp only [generate, hr, Out.bind_eq_ok, Out.ok.injEq, Generated.item.injEq, Out.mapM'_eq_ok] at hg
  obtain ⟨ident, -, td, hd, ris, hf, rfl⟩ := hg
  obtain ⟨a, ha, hT, hkind⟩ := attrs_list F ht (steps_kind "tuple" .tuple (by decide)) hd (input := l.input) (intro := l.intro)
  obtain ⟨s, hs, hh⟩ := header_back hT hc.1 ho
  obtain ⟨sis, types, h1, h2, h4⟩ := items_back F ht hf []
  have hp : parseItem c.lib ⟨ident, [tldr ([[.ident "tuple"]] ++ [introAttr l.intro l.input, td, inputAttr l.input])],
      .struct (.unnamed ris)⟩ = .ok (.sized a.header sis, types) := by
    simp only [parseItem, ha, Out.bind_ok, hkind, parseKind, h1, List.nil_append]
  refine ⟨types, derive_of hp (by simp [SLayout.layoutId, TypeAttrs.header, hT.id])
    (al := .sized { l with items := itemsWith c 0 l.items }) ?_ rfl, h2⟩
  simp only [SLayout.buildBody, hh, lift_ok_eq, bind_pure_eq]
  rw [h4 s hs fun e he => ⟨hc.2 e he, hof e he⟩]
  rfl

theorem derived_ordered (ht : TotalOrder c.leQ) {reg : Registry R} {r : R} {l : OrderedLayout R} {item : RItem}
    (hr : reg r = some (.ordered l)) (hg : generate g reg r = .ok (.item item)) (hc : Layout.Closed (.ordered l))
    (ho : SortedDs c l.dataset) (hof : SortedDs c l.node.dataset) (debug : Bool) (fuel : Nat) :
    ∃ t, derive c.lib c debug fuel item =
        .ok (.ordered { l with node := { l.node with value := withType c 0 l.node.value } }, [t]) ∧
      layoutRef g l.node.value.layout = .ok t := by
  simp only [generate, hr, Out.bind_eq_ok, Out.ok.injEq, Generated.item.injEq, Prod.exists] at hg
  obtain ⟨ident, -, td, hd, hid, hhd, tid, htl, attr, t, hcomp, rfl⟩ := hg
  obtain ⟨ad, sds, rfl, pd, bd⟩ := dataset_back F ht hd
  obtain ⟨shead, ph, bh⟩ := pattern_back F hhd
  obtain ⟨stail, pt, bt⟩ := pattern_back F htl
  obtain ⟨hl, i, hi, hI, hih, hir⟩ := component_back F ht hcomp
    (a₀ := { head := some (toString (l.input + l.intro)), rest := some (toString (l.input + l.intro + 1)) })
    (.cons (b := { head := some (toString (l.input + l.intro)) })
      (by intro more; simp [compStep, expectArgument, parseString, stringToken, replace])
      (.cons (by intro more; simp [compStep, expectArgument, parseString, stringToken, replace]) (.nil _)))
    ⟨rfl, rfl, rfl, rfl, rfl⟩
  have ha : parseAttrs (typeStep c.lib) [tldr [[.ident "list"], introAttr l.intro l.input, call "head" [.str hid],
      call "tail" [.str tid], call "dataset" ad, inputAttr l.input]] {} = .ok (TypeAttrs.mk none [] none (some Kind.list)
        (some (varNames 0 l.input)) (some (varNames l.input l.intro)) (some shead) (some stail) (some sds) none none) := by
    apply parseAttrs_tldr
    refine .cons (b := { kind := some .list }) ?_
      (.cons (b := { kind := some .list, intro := some (varNames l.input l.intro) }) ?_
      (.cons (b := { kind := some .list, intro := some (varNames l.input l.intro), head := some shead }) ?_
      (.cons (b := { kind := some .list, intro := some (varNames l.input l.intro), head := some shead, tail := some stail }) ?_
      (.cons (b := TypeAttrs.mk none [] none (some Kind.list) none (some (varNames l.input l.intro)) (some shead) (some stail)
        (some sds) none none) ?_ (.cons ?_ (.nil _))))))
    · intro more
      simp [typeStep, Kind.ofIdent, replace]
    · intro more
      simp [typeStep, Kind.ofIdent, expectArgument, parseList_strings, replace]
    · intro more
      simp [typeStep, Kind.ofIdent, patternArg, expectArgument, parseString, stringToken, ph, replace]
    · intro more
      simp [typeStep, Kind.ofIdent, patternArg, expectArgument, parseString, stringToken, pt, replace]
    · intro more
      simp [typeStep, Kind.ofIdent, expectArgument, pd, replace]
    · intro more
      simp [typeStep, Kind.ofIdent, expectArgument, parseList_strings, replace]
  generalize haa : TypeAttrs.mk none [] none (some Kind.list) (some (varNames 0 l.input)) (some (varNames l.input l.intro))
    (some shead) (some stail) (some sds) none none = a at ha
  have hT : TypeBack c l.input l.intro l.dataset a := by
    subst haa
    exact ⟨rfl, rfl, rfl, rfl, rfl, rfl, sds, rfl, bd⟩
  have hkind : a.kind = some .list := by subst haa; rfl
  have hahead : a.head = some shead := by subst haa; rfl
  have hatail : a.tail = some stail := by subst haa; rfl
  obtain ⟨s, hs, hh⟩ := header_back hT hc.1 ho
  obtain ⟨sd, hsd, bsd⟩ := hI.dataset
  refine ⟨t, derive_of (sl := .ordered a.header (.node (toString (l.input + l.intro)) (toString (l.input + l.intro + 1)) i.valueIntro
      (i.value "value" 0) (some sd)) shead stail)
    (al := .ordered { l with node := { l.node with value := withType c 0 l.node.value } }) ?_
    (by simp [SLayout.layoutId, TypeAttrs.header, hT.id]) ?_ rfl, hl⟩
  · simp only [parseItem, ha, Out.bind_ok, hkind, parseKind, oneField, hi, extractVecItem, hih, hir, hahead, hatail, Option.getD_some,
      hsd]
  · have hs2 := (hs.withIntro 2).withIntro l.node.intro
    have hsc : s.withIntro (toString (l.input + l.intro) :: toString (l.input + l.intro + 1) ::
        (oneOrMany (varNames (l.input + l.intro + 2) l.node.intro)).asSlice) =
        (s.withIntro (varNames (l.input + l.intro) 2)).withIntro (varNames (l.input + l.intro + 2) l.node.intro) := by
      rw [asSlice_oneOrMany]
      rfl
    simp only [SLayout.buildBody, hh, lift_ok_eq, bind_pure_eq, SNode.build, comp_intro hI, hsc, value_build F hI hs2 hc.2.2.2.2,
      nodeDataset, bsd _ _ hs2 hc.2.2.2.1 hof, bh s _ hs hc.2.1, bt s _ hs hc.2.2.1, len_oneOrMany, varNames_length]
    rfl

theorem derived_unordered (ht : TotalOrder c.leQ) {reg : Registry R} {r : R} {l : UnorderedLayout R} {item : RItem}
    (hr : reg r = some (.unordered l)) (hg : generate g reg r = .ok (.item item)) (debug : Bool) (fuel : Nat) :
    derive c.lib c debug fuel item = .err (.parse .expectedVec) := by
  simp only [generate, hr, Out.bind_eq_ok, Out.ok.injEq, Generated.item.injEq, Prod.exists] at hg
  obtain ⟨ident, -, td, hd, attr, t, hcomp, rfl⟩ := hg
  obtain ⟨a, ha, hT, hkind⟩ := attrs_list F ht (steps_kind "set" .set (by decide)) hd (input := l.input) (intro := l.intro)
  obtain ⟨hl, i, hi, -, -, -⟩ := component_back F ht hcomp (.nil _) ⟨rfl, rfl, rfl, rfl, rfl⟩
  have hp : parseItem c.lib ⟨ident, [tldr ([[.ident "set"]] ++ [introAttr l.intro l.input, td, inputAttr l.input])],
      .struct (.unnamed [([attr], .path ["std", "collection"] "BTreeSet" [t])])⟩ = .err .expectedVec := by
    simp only [parseItem, ha, Out.bind_ok, hkind, parseKind, oneField, hi, extractVecItem, Out.bind_err]
  have : derive c.lib c debug fuel ⟨ident, [tldr ([[.ident "set"]] ++ [introAttr l.intro l.input, td, inputAttr l.input])],
      .struct (.unnamed [([attr], .path ["std", "collection"] "BTreeSet" [t])])⟩ = .err (.parse .expectedVec) := by
    simp only [derive, hp, Out.mapErr, Out.bind_err]
  exact this

/-- Booleans, numbers, strings and byte strings: what is generated is read as a tuple of one item. -/
theorem derived_data (ht : TotalOrder c.leQ) {ident : String} {input intro : Nat} {ds : List (QuadPat R)} {t : RType} {item : RItem}
    (hg : literalItem g ident [] input intro ds (.unnamed [([], t)]) = .ok (.item item))
    (hb : PatsBelow (input + intro) ds) (ho : SortedDs c ds) (debug : Bool) (fuel : Nat) :
    derive c.lib c debug fuel item =
      .ok (.sized ⟨input, intro, [⟨1, ⟨c.iri (typeIri 0), [.var (input + intro)], none⟩, []⟩], ds⟩, [t]) := by
  simp only [literalItem, Out.bind_eq_ok, Out.ok.injEq, Generated.item.injEq] at hg
  obtain ⟨td, hd, rfl⟩ := hg
  obtain ⟨a, ha, hT, hk⟩ := attrs_plain F ht (.nil _) hd (input := input) (intro := intro)
  obtain ⟨s, hs, hh⟩ := header_back hT hb ho
  have hp : parseItem c.lib ⟨ident, [tldr ([] ++ [inputAttr input, introAttr intro input, td])], .struct (.unnamed [([], t)])⟩ =
      .ok (.sized a.header [.mk (.one "value") (.format (.ref (typeIri 0)) (.one (.var "value")) none) [] none], [t]) := by
    rw [parseItem, ha]
    simp only [Out.bind_ok, hk, Kind.ofData, parseKind, parseItems]
    rfl
  refine derive_of hp (by simp [SLayout.layoutId, TypeAttrs.header, hT.id]) (al := .sized _) ?_ rfl
  simp only [SLayout.buildBody, hh, lift_ok_eq, bind_pure_eq, buildItems, SItem.build, OneOrMany.asSlice, OneOrMany.len,
    buildPropDataset, SDataset.build, SFormat.build, buildInputs, Out.mapM', SPattern.build, Scope.withIntro, List.foldl,
    Scope.bind, Scope.index, List.lookup, beq_self_eq_true, hs.count, Out.bind_ok, SLayoutRef.build, CompactIri.build, buildGraph]
  rw [resolve_plain (by exact hs.prefixes) (F.types 0)]
  rfl

end

end Verif.Rust
