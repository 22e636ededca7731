import Verif.SyntaxSpec

/-!
# Correctness of the compilation of layout definitions
-/

set_option linter.unusedSectionVars false
set_option linter.unusedSimpArgs false

namespace Verif

open BuildM

variable {R : Type} [DecidableEq R]

theorem layoutId_eq_some {l : SLayout} {i : CompactIri} : l.layoutId = some i ↔ l.HasId i := by
  cases l <;> simp [SLayout.layoutId, SLayout.HasId, SLayout.header]

theorem bind_ok_eq {ε α β : Type} {x : Out ε α} {f : α → β} {b : β} :
    (x.bind fun a => .ok (f a)) = .ok b ↔ ∃ a, x = .ok a ∧ b = f a := by
  simp only [Out.bind_eq_ok, Out.ok.injEq, @eq_comm _ b]

theorem ok_eq_iff {ε α : Type} {a b : α} : (Out.ok a : Out ε α) = .ok b ↔ b = a := by
  rw [Out.ok.injEq, eq_comm]

/-! ## Maps and sets -/

theorem lookup_cons_ite {κ α : Type} [DecidableEq κ] (k k' : κ) (v : α) (m : List (κ × α)) :
    ((k', v) :: m).lookup k = if k = k' then some v else m.lookup k := by
  rw [List.lookup_cons]
  by_cases h : k = k'
  · simp [h]
  · have : (k == k') = false := by simpa using h
    simp [h, this]

theorem lookup_bmapInsert {κ α : Type} [DecidableEq κ] (le : κ → κ → Bool) (k r : κ) (v : α) (m : List (κ × α)) :
    (bmapInsert le k v m).lookup r = if r = k then some v else m.lookup r := by
  induction m with
  | nil => simp only [bmapInsert, lookup_cons_ite]
  | cons e m ih =>
    obtain ⟨k', v'⟩ := e
    simp only [bmapInsert]
    split
    · rename_i h
      subst h
      rw [lookup_cons_ite, lookup_cons_ite]
      by_cases hr : r = k <;> simp [hr]
    · rename_i h
      split
      · rw [lookup_cons_ite]
      · rw [lookup_cons_ite, ih, lookup_cons_ite]
        by_cases hr : r = k
        · subst hr
          simp [h]
        · simp [hr]

theorem mem_dsInsert {α : Type} [DecidableEq α] (le : α → α → Bool) (q x : α) (l : List α) :
    x ∈ dsInsert le q l ↔ x = q ∨ x ∈ l := by
  induction l with
  | nil => simp [dsInsert]
  | cons q' l ih =>
    simp only [dsInsert]
    split
    · rename_i h
      subst h
      simp
    · split
      · simp
      · simp only [List.mem_cons, ih]
        grind

/-- A sorted list without repetition. -/
def StrictlySorted {α : Type} (le : α → α → Bool) (l : List α) : Prop := l.Pairwise fun a b => le a b = true ∧ a ≠ b

theorem StrictlySorted.nodup {α : Type} {le : α → α → Bool} {l : List α} (h : StrictlySorted le l) : l.Nodup :=
  h.imp fun h => h.2

theorem StrictlySorted.dsInsert {α : Type} [DecidableEq α] {le : α → α → Bool} (hle : TotalOrder le) (q : α) {l : List α}
    (h : StrictlySorted le l) : StrictlySorted le (dsInsert le q l) := by
  induction l with
  | nil => simp [Verif.dsInsert, StrictlySorted]
  | cons q' l ih =>
    have hl := List.pairwise_cons.1 h
    simp only [Verif.dsInsert]
    split
    · exact h
    · rename_i hne
      split
      · rename_i hlt
        refine List.pairwise_cons.2 ⟨fun x hx => ?_, h⟩
        rcases List.mem_cons.1 hx with rfl | hx
        · exact ⟨hlt, hne⟩
        · refine ⟨hle.trans _ _ _ hlt (hl.1 x hx).1, ?_⟩
          rintro rfl
          exact hne (hle.antisymm _ _ hlt (hl.1 _ hx).1)
      · rename_i hlt
        refine List.pairwise_cons.2 ⟨fun x hx => ?_, ih hl.2⟩
        rcases (mem_dsInsert _ _ _ _).1 hx with rfl | hx
        · exact ⟨(hle.total _ _).resolve_left hlt, fun e => hne e.symm⟩
        · exact hl.1 x hx

theorem mem_bmapInsert {κ α : Type} [DecidableEq κ] (le : κ → κ → Bool) (k : κ) (v : α) (m : List (κ × α)) (e : κ × α)
    (h : e ∈ bmapInsert le k v m) : e = (k, v) ∨ e ∈ m := by
  induction m with
  | nil => simpa [bmapInsert] using h
  | cons e' m ih =>
    obtain ⟨k', v'⟩ := e'
    simp only [bmapInsert] at h
    split at h
    · simp only [List.mem_cons] at h ⊢
      grind
    · split at h
      · simp only [List.mem_cons] at h ⊢
        grind
      · simp only [List.mem_cons] at h ⊢
        grind

theorem bmapInsert_self {κ α : Type} [DecidableEq κ] (le : κ → κ → Bool) (k : κ) (v : α) (m : List (κ × α)) :
    (k, v) ∈ bmapInsert le k v m := by
  induction m with
  | nil => simp [bmapInsert]
  | cons e' m ih =>
    obtain ⟨k', v'⟩ := e'
    simp only [bmapInsert]
    split
    · simp
    · split <;> simp [ih]

theorem bmapInsert_keeps_key {κ α : Type} [DecidableEq κ] (le : κ → κ → Bool) (k : κ) (v : α) (m : List (κ × α)) (k₀ : κ)
    (h : ∃ w, (k₀, w) ∈ m) : ∃ w, (k₀, w) ∈ bmapInsert le k v m := by
  induction m with
  | nil => simp at h
  | cons e' m ih =>
    obtain ⟨k', v'⟩ := e'
    obtain ⟨w, hw⟩ := h
    simp only [bmapInsert]
    split
    · rename_i hk
      simp only [List.mem_cons, Prod.mk.injEq] at hw
      rcases hw with ⟨h1, h2⟩ | hw
      · exact ⟨v, by simp [h1, hk]⟩
      · exact ⟨w, by simp [hw]⟩
    · split
      · exact ⟨w, List.mem_cons_of_mem _ hw⟩
      · simp only [List.mem_cons, Prod.mk.injEq] at hw
        rcases hw with ⟨h1, h2⟩ | hw
        · exact ⟨v', by simp [h1]⟩
        · obtain ⟨w', hw'⟩ := ih ⟨w, hw⟩
          exact ⟨w', List.mem_cons_of_mem _ hw'⟩

/-! ## Scopes -/

/-- The scope implements the environment. -/
structure Scope.Matches (s : Scope) (env : LexEnv) : Prop where
  base : s.baseIri = env.base
  prefixes : ∀ x, s.prefixes.lookup x = env.prefixes x
  count : s.count = env.names.length
  vars : ∀ x i, s.vars.lookup x = some i ↔ NameDenotes env.names x i

theorem nameDenotes_snoc (names : List String) (x y : String) (i : Nat) :
    NameDenotes (names ++ [x]) y i ↔ if y = x then i = names.length else NameDenotes names y i := by
  unfold NameDenotes
  constructor
  · rintro ⟨h1, h2⟩
    by_cases hi : i < names.length
    · rw [List.getElem?_append_left hi] at h1
      have hyx : y ≠ x := by
        rintro rfl
        exact h2 names.length hi (by simp)
      rw [if_neg hyx]
      refine ⟨h1, fun j hj hy => ?_⟩
      have hlt : j < names.length := by
        by_contra hge
        rw [List.getElem?_eq_none (by omega)] at hy
        cases hy
      exact h2 j hj (by rw [List.getElem?_append_left hlt]; exact hy)
    · have hlen : i = names.length := by
        by_contra hne
        rw [List.getElem?_eq_none (by simp; omega)] at h1
        cases h1
      subst hlen
      simp at h1
      rw [if_pos h1.symm]
  · intro h
    split at h
    · rename_i hyx
      subst hyx
      subst h
      refine ⟨by simp, fun j hj hy => ?_⟩
      rw [List.getElem?_eq_none (by simp; omega)] at hy
      cases hy
    · rename_i hyx
      obtain ⟨h1, h2⟩ := h
      have hi : i < names.length := by
        by_contra hge
        rw [List.getElem?_eq_none (by omega)] at h1
        cases h1
      refine ⟨by rw [List.getElem?_append_left hi]; exact h1, fun j hj hy => ?_⟩
      by_cases hlt : j < names.length
      · rw [List.getElem?_append_left hlt] at hy
        exact h2 j hj hy
      · by_cases hj : j = names.length
        · subst hj
          simp at hy
          exact hyx hy.symm
        · rw [List.getElem?_eq_none (by simp; omega)] at hy
          cases hy

theorem NameDenotes.lt {names : List String} {x : String} {i : Nat} (h : NameDenotes names x i) : i < names.length := by
  by_contra hge
  have := h.1
  rw [List.getElem?_eq_none (by omega)] at this
  cases this

theorem NameDenotes.unique {names : List String} {x : String} {i j : Nat} (hi : NameDenotes names x i) (hj : NameDenotes names x j) : i = j := by
  rcases Nat.lt_trichotomy i j with h | h | h
  · exact absurd hj.1 (hi.2 j h)
  · exact h
  · exact absurd hi.1 (hj.2 i h)

theorem nameDenotes_iff_mem (names : List String) (x : String) : (∃ i, NameDenotes names x i) ↔ x ∈ names := by
  constructor
  · rintro ⟨i, h, -⟩
    exact List.mem_of_getElem? h
  · intro h
    rw [← List.reverse_reverse names] at h ⊢
    generalize names.reverse = rs at h ⊢
    induction rs with
    | nil => simp at h
    | cons y rs ih =>
      rw [List.reverse_cons] at h ⊢
      generalize rs.reverse = l at *
      by_cases hxy : x = y
      · exact ⟨l.length, (nameDenotes_snoc _ _ _ _).2 (by rw [if_pos hxy])⟩
      · simp only [List.mem_append, List.mem_singleton, hxy, or_false] at h
        obtain ⟨i, hi⟩ := ih h
        exact ⟨i, (nameDenotes_snoc _ _ _ _).2 (by rw [if_neg hxy]; exact hi)⟩

theorem Scope.Matches.bind {s : Scope} {env : LexEnv} (h : s.Matches env) (x : String) :
    (s.bind x).Matches (env.declare [x]) := by
  refine ⟨h.base, h.prefixes, by simp [Scope.bind, LexEnv.declare, h.count], fun y i => ?_⟩
  simp only [Scope.bind, LexEnv.declare, nameDenotes_snoc, lookup_cons_ite, h.count]
  split
  · simp only [Option.some.injEq]
    exact eq_comm
  · exact h.vars y i

theorem Scope.Matches.withIntro {s : Scope} {env : LexEnv} (h : s.Matches env) (l : List String) :
    (s.withIntro l).Matches (env.declare l) := by
  induction l generalizing s env with
  | nil => simpa [Scope.withIntro, LexEnv.declare] using h
  | cons x l ih =>
    have := ih (h.bind x)
    simp only [Scope.withIntro, LexEnv.declare, List.foldl_cons, List.append_assoc, List.singleton_append] at this ⊢
    exact this

theorem Scope.Matches.withoutVariables {s : Scope} {env : LexEnv} (h : s.Matches env) :
    s.withoutVariables.Matches env.nested :=
  ⟨h.base, h.prefixes, rfl, fun x i => by simp [Scope.withoutVariables, LexEnv.nested, NameDenotes]⟩

theorem Scope.matches_empty : ({} : Scope).Matches LexEnv.empty :=
  ⟨rfl, fun _ => rfl, rfl, fun x i => by simp [LexEnv.empty, NameDenotes]⟩

theorem resolve_ok {lib : IriLib} {s : Scope} {env : LexEnv} (h : s.Matches env) {i : CompactIri} {r : String} :
    CompactIri.resolve lib s i = .ok r ↔ Expands lib env i r := by
  unfold CompactIri.resolve
  rw [h.base, h.prefixes]
  constructor
  · intro he
    split at he
    · rename_i hi
      split at he
      · rename_i p hp
        dsimp only at he
        split at he
        · rename_i hr
          cases he
          exact .prefixed p hi hp hr
        · cases he
      · rename_i hp
        cases he
        exact .absolute hi hp
    · rename_i hi
      simp only [Bool.not_eq_true] at hi
      split at he
      · rename_i b hb
        cases he
        exact .relative b hi hb
      · cases he
  · intro he
    cases he with
    | absolute hi hp => rw [if_pos hi, hp]
    | prefixed p hi hp hr => rw [if_pos hi, hp]; simp [hr]
    | relative b hi hb => rw [if_neg (by simp [hi]), hb]

theorem index_ok {s : Scope} {env : LexEnv} (h : s.Matches env) {x : String} {i : Nat} :
    s.index x = .ok i ↔ NameDenotes env.names x i := by
  rw [← h.vars]
  unfold Scope.index
  split
  · rename_i j hj
    simp [hj]
  · rename_i hj
    simp [hj]

/-! ## Patterns, datasets, headers -/

theorem litType_means {lib : IriLib} {s : Scope} {env : LexEnv} (h : s.Matches env) {ty : SLitType} {ty' : LitType} :
    ty.resolve lib s = .ok ty' ↔ ty.Means lib env ty' := by
  cases ty with
  | iri i =>
    simp only [SLitType.resolve, SLitType.Means, bind_ok_eq, ok_eq_iff, resolve_ok h]
  | language tag => simp only [SLitType.resolve, SLitType.Means, bind_ok_eq, ok_eq_iff]

theorem pattern_means {c : BuildCtx R} {s : Scope} {env : LexEnv} (h : s.Matches env) {p : SPattern} {p' : Pattern R} :
    p.build c s = .ok p' ↔ p.Means c env p' := by
  cases p with
  | var x => simp only [SPattern.build, SPattern.Means, bind_ok_eq, ok_eq_iff, index_ok h]
  | iri i => simp only [SPattern.build, SPattern.Means, bind_ok_eq, ok_eq_iff, resolve_ok h]
  | literal v ty => simp only [SPattern.build, SPattern.Means, bind_ok_eq, ok_eq_iff, litType_means h]

theorem optPattern_means {c : BuildCtx R} {s : Scope} {env : LexEnv} (h : s.Matches env) {p : Option SPattern}
    {p' : Option (Pattern R)} : optBuild c s p = .ok p' ↔ Option.Rel (SPattern.Means c env) p p' := by
  cases p with
  | none =>
    simp only [optBuild, Out.ok.injEq]
    constructor
    · rintro rfl
      exact .none
    · intro hr
      cases hr
      rfl
  | some p =>
    simp only [optBuild, Out.bind_eq_ok, pattern_means h, Out.ok.injEq]
    constructor
    · rintro ⟨a, ha, rfl⟩
      exact .some ha
    · intro hr
      cases hr with
      | some hr => exact ⟨_, hr, rfl⟩

theorem quad_means {c : BuildCtx R} {s : Scope} {env : LexEnv} (h : s.Matches env) {q : Quad SPattern} {q' : QuadPat R} :
    SQuad.build c s q = .ok q' ↔ QuadMeans c env q q' := by
  simp only [SQuad.build, QuadMeans, Out.bind_eq_ok, pattern_means h, optPattern_means h, Out.ok.injEq]
  constructor
  · rintro ⟨a, ha, b, hb, d, hd, g, hg, rfl⟩
    exact ⟨ha, hb, hd, hg⟩
  · rintro ⟨h1, h2, h3, h4⟩
    exact ⟨_, h1, _, h2, _, h3, _, h4, rfl⟩

theorem dataset_means_aux {c : BuildCtx R} {s : Scope} {env : LexEnv} (h : s.Matches env) (ds : List (Quad SPattern))
    (acc ds' : List (QuadPat R)) (hb : SDataset.build c s ds acc = .ok ds') :
    (∀ q ∈ ds, ∃ q' ∈ ds', QuadMeans c env q q') ∧ (∀ q' ∈ ds', q' ∈ acc ∨ ∃ q ∈ ds, QuadMeans c env q q') ∧
      (∀ q' ∈ acc, q' ∈ ds') ∧ (TotalOrder c.leQ → StrictlySorted c.leQ acc → StrictlySorted c.leQ ds') := by
  induction ds generalizing acc with
  | nil =>
    simp only [SDataset.build, Out.ok.injEq] at hb
    subst hb
    exact ⟨by simp, fun q hq => .inl hq, fun q hq => hq, fun _ h => h⟩
  | cons q ds ih =>
    simp only [SDataset.build, Out.bind_eq_ok, quad_means h] at hb
    obtain ⟨q₀, hq₀, hb⟩ := hb
    obtain ⟨h1, h2, h3, h4⟩ := ih _ hb
    have hmem : q₀ ∈ ds' := h3 _ ((mem_dsInsert _ _ _ _).2 (.inl rfl))
    refine ⟨?_, ?_, fun q' hq' => h3 _ ((mem_dsInsert _ _ _ _).2 (.inr hq')), fun hle hacc => h4 hle (hacc.dsInsert hle _)⟩
    · intro q' hq'
      rcases List.mem_cons.1 hq' with rfl | hq'
      · exact ⟨q₀, hmem, hq₀⟩
      · exact h1 q' hq'
    · intro q' hq'
      rcases h2 q' hq' with hm | ⟨q'', hm, hq''⟩
      · rcases (mem_dsInsert _ _ _ _).1 hm with rfl | hm
        · exact .inr ⟨q, by simp, hq₀⟩
        · exact .inl hm
      · exact .inr ⟨q'', by simp [hm], hq''⟩

theorem dataset_means {c : BuildCtx R} {s : Scope} {env : LexEnv} (h : s.Matches env) {ds : List (Quad SPattern)}
    {ds' : List (QuadPat R)} (hb : SDataset.build c s ds [] = .ok ds') : DatasetMeans c env ds ds' := by
  obtain ⟨h1, h2, -, h4⟩ := dataset_means_aux h ds [] ds' hb
  exact ⟨h1, fun q hq => (h2 q hq).resolve_left (by simp), fun hle => (h4 hle .nil).nodup⟩

theorem resource_means {c : BuildCtx R} {s : Scope} {env : LexEnv} (h : s.Matches env) {v : SResource} {r : R} :
    v.build c s = .ok r ↔ v.Means c env r := by
  cases v <;> simp only [SResource.build, SResource.Means, bind_ok_eq, ok_eq_iff, resolve_ok h, xsdBoolean, xsdString]

theorem compactIri_means {c : BuildCtx R} {s : Scope} {env : LexEnv} (h : s.Matches env) {i : CompactIri} {r : R} :
    CompactIri.build c s i = .ok r ↔ ∃ i', Expands c.lib env i i' ∧ r = c.iri i' := by
  simp only [CompactIri.build, bind_ok_eq, ok_eq_iff, resolve_ok h]

theorem extra_means_aux {c : BuildCtx R} {s : Scope} {env : LexEnv} (h : s.Matches env) (es : List (CompactIri × SResource))
    (acc es' : List (R × R)) (hb : buildExtra c s es acc = .ok es') :
    (∀ e ∈ es, ∃ i v, Expands c.lib env e.1 i ∧ (c.iri i, v) ∈ es') ∧
      (∀ e' ∈ es', e' ∈ acc ∨ ∃ e ∈ es, ∃ i, Expands c.lib env e.1 i ∧ e'.1 = c.iri i ∧ e.2.Means c env e'.2) ∧
      ∀ k, (∃ w, (k, w) ∈ acc) → ∃ w, (k, w) ∈ es' := by
  induction es generalizing acc with
  | nil =>
    simp only [buildExtra, Out.ok.injEq] at hb
    subst hb
    exact ⟨by simp, fun e he => .inl he, fun k hk => hk⟩
  | cons e es ih =>
    obtain ⟨p, v⟩ := e
    simp only [buildExtra, Out.bind_eq_ok, compactIri_means h, resource_means h] at hb
    obtain ⟨p', ⟨i, hi, rfl⟩, v', hv', hb⟩ := hb
    obtain ⟨h1, h2, h3⟩ := ih _ hb
    refine ⟨?_, ?_, fun k hk => h3 k (bmapInsert_keeps_key _ _ _ _ _ hk)⟩
    · intro e he
      rcases List.mem_cons.1 he with rfl | he
      · obtain ⟨w, hw⟩ := h3 (c.iri i) ⟨v', bmapInsert_self _ _ _ _⟩
        exact ⟨i, w, hi, hw⟩
      · exact h1 e he
    · intro e' he'
      rcases h2 e' he' with hm | ⟨e, he, hrest⟩
      · rcases mem_bmapInsert _ _ _ _ _ hm with rfl | hm
        · exact .inr ⟨(p, v), by simp, i, hi, rfl, hv'⟩
        · exact .inl hm
      · exact .inr ⟨e, by simp [he], hrest⟩

theorem extra_means {c : BuildCtx R} {s : Scope} {env : LexEnv} (h : s.Matches env) {es : List (CompactIri × SResource)}
    {es' : List (R × R)} (hb : buildExtra c s es [] = .ok es') : ExtraMeans c env es es' := by
  obtain ⟨h1, h2, -⟩ := extra_means_aux h es [] es' hb
  exact ⟨h1, fun q hq => (h2 q hq).resolve_left (by simp)⟩

theorem newPrefixes_spec {lib : IriLib} {s : Scope} {env : LexEnv} (h : s.Matches env) (ps : List (String × CompactIri))
    (acc acc' : List (String × String)) (hb : s.newPrefixes lib ps acc = .ok acc') :
    (∀ pre x p post, ps = pre ++ (x, p) :: post → x ∉ post.map Prod.fst → ∃ i, Expands lib env p i ∧ acc'.lookup x = some i) ∧
      ∀ x, x ∉ ps.map Prod.fst → acc'.lookup x = acc.lookup x := by
  induction ps generalizing acc with
  | nil =>
    simp only [Scope.newPrefixes, Out.ok.injEq] at hb
    subst hb
    exact ⟨fun pre x p post he => by simp at he, fun _ _ => rfl⟩
  | cons e ps ih =>
    obtain ⟨y, q⟩ := e
    simp only [Scope.newPrefixes, Out.bind_eq_ok, resolve_ok h] at hb
    obtain ⟨i, hi, hb⟩ := hb
    obtain ⟨h1, h2⟩ := ih _ hb
    constructor
    · intro pre x p post he hx
      cases pre with
      | nil =>
        simp only [List.nil_append, List.cons.injEq, Prod.mk.injEq] at he
        obtain ⟨⟨rfl, rfl⟩, rfl⟩ := he
        refine ⟨i, hi, ?_⟩
        rw [h2 _ hx, lookup_cons_ite, if_pos rfl]
      | cons e' pre =>
        simp only [List.cons_append, List.cons.injEq] at he
        exact h1 pre x p post he.2 hx
    · intro x hx
      simp only [List.map_cons, List.mem_cons, not_or] at hx
      rw [h2 x hx.2, lookup_cons_ite, if_neg hx.1]

theorem OneOrMany.len_eq {α : Type} (l : OneOrMany α) : l.len = l.asSlice.length := by cases l <;> rfl

theorem OneOrMany.isEmpty_iff {α : Type} (l : OneOrMany α) : l.isEmpty = true ↔ l.asSlice = [] := by
  cases l <;> simp [OneOrMany.isEmpty, OneOrMany.asSlice]

theorem withHeader_opens {lib : IriLib} {s s' : Scope} {env : LexEnv} (h : s.Matches env) {hd : LayoutHeader}
    (hb : s.withHeader lib hd = .ok s') : ∃ env', s'.Matches env' ∧ Opens lib env hd env' := by
  simp only [Scope.withHeader, Out.bind_eq_ok, Out.ok.injEq] at hb
  obtain ⟨base, hbase, ps, hps, rfl⟩ := hb
  obtain ⟨h1, h2⟩ := newPrefixes_spec h _ _ _ hps
  let env₁ : LexEnv := ⟨base, fun x => ps.lookup x, env.names⟩
  have hm : ({ s with baseIri := base, prefixes := ps } : Scope).Matches env₁ := ⟨rfl, fun _ => rfl, h.count, h.vars⟩
  refine ⟨_, hm.withIntro _, ?_, ?_, ?_, ?_⟩
  · cases hhb : hd.base with
    | none =>
      rw [hhb] at hbase
      simp only [Scope.newBase, Out.ok.injEq] at hbase
      show base = env.base
      rw [← hbase, h.base]
    | some b =>
      rw [hhb] at hbase
      simp only [Scope.newBase, Out.bind_eq_ok, resolve_ok h, Out.ok.injEq] at hbase
      obtain ⟨i, hi, hbase⟩ := hbase
      exact ⟨i, hi, hbase.symm⟩
  · exact h1
  · intro x hx
    show ps.lookup x = env.prefixes x
    rw [h2 x hx, h.prefixes]
  · simp [LexEnv.declare, env₁]

theorem header_means {c : BuildCtx R} {s : Scope} {env : LexEnv} (h : s.Matches env) {hd : LayoutHeader} {b : BuiltHeader R}
    (hb : hd.build c s = .ok b) :
    ∃ env', b.scope.Matches env' ∧ HeaderMeans c env hd env' b.input b.intro b.dataset ∧
      ExtraMeans c env' hd.extra b.properties := by
  simp only [LayoutHeader.build, Out.bind_eq_ok, Out.ok.injEq] at hb
  obtain ⟨s', hs', ds, hds, ps, hps, rfl⟩ := hb
  obtain ⟨env', hm, ho⟩ := withHeader_opens h hs'
  exact ⟨env', hm, ⟨ho, OneOrMany.len_eq _, OneOrMany.len_eq _, dataset_means hm hds⟩, extra_means hm hps⟩

theorem literalResource_means {c : BuildCtx R} {s : Scope} {env : LexEnv} (h : s.Matches env) {input : OneOrMany String}
    {r : Option SPattern} {r' : Pattern R} (hb : literalResource c s input r = .ok r') : ResourceMeans c env input r r' := by
  cases r with
  | some p => exact (pattern_means h).1 hb
  | none =>
    simp only [literalResource] at hb
    split at hb
    · cases hb
    · rename_i he
      cases hb
      exact ⟨fun h0 => he ((OneOrMany.isEmpty_iff _).2 h0), rfl⟩

theorem datatype_means {c : BuildCtx R} {s : Scope} {env : LexEnv} (h : s.Matches env) {default : String} {dt : Option CompactIri}
    {r : R} (hb : buildDatatype c s default dt = .ok r) : DatatypeMeans c env default dt r := by
  cases dt with
  | some i => exact (compactIri_means h).1 hb
  | none =>
    simp only [buildDatatype, Out.ok.injEq] at hb
    exact hb.symm

theorem graph_means {c : BuildCtx R} {s : Scope} {env : LexEnv} (h : s.Matches env) {g : Option (Option SPattern)}
    {g' : Option (Option (Pattern R))} (hb : buildGraph c s g = .ok g') : GraphMeans c env g g' := by
  match g with
  | none =>
    simp only [buildGraph, Out.ok.injEq] at hb
    subst hb
    exact .none
  | some none =>
    simp only [buildGraph, Out.ok.injEq] at hb
    subst hb
    exact .some .none
  | some (some p) =>
    simp only [buildGraph, Out.bind_eq_ok, pattern_means h, Out.ok.injEq] at hb
    obtain ⟨p', hp', rfl⟩ := hb
    exact .some (.some hp')

theorem inputs_means {c : BuildCtx R} {s : Scope} {env : LexEnv} (h : s.Matches env) {l : List SPattern} {l' : List (Pattern R)}
    (hb : buildInputs c s l = .ok l') : List.Forall₂ (SPattern.Means c env) l l' := by
  have := Out.mapM'_eq_ok.1 hb
  exact this.imp fun _ _ h' => (pattern_means h).1 h'

theorem listDataset_means (c : BuildCtx R) (head rest : Nat) (first : Pattern R) :
    ListDatasetMeans c head rest first (defaultListDataset c head rest first) := by
  intro q
  simp only [defaultListDataset, mem_dsInsert, List.not_mem_nil, or_false]
  exact or_comm

theorem propDataset_means {c : BuildCtx R} {s : Scope} {env : LexEnv} (h : s.Matches env) {input intro : OneOrMany String}
    {count : Nat} {ds : List (Quad SPattern)} {property : Option SPattern} {ds' : List (QuadPat R)}
    (hb : buildPropDataset c s (subjectOf input) (objectOf intro count) ds property = .ok ds') :
    (property.isSome = true → input.asSlice ≠ [] ∧ intro.asSlice ≠ []) ∧ PropDatasetMeans c env count ds property ds' := by
  cases property with
  | none => exact ⟨by simp, dataset_means h hb⟩
  | some p =>
    simp only [buildPropDataset, Out.bind_eq_ok] at hb
    obtain ⟨ds₀, hds₀, hb⟩ := hb
    unfold subjectOf objectOf at hb
    split at hb
    · cases hb
    · rename_i subject hsub
      split at hb
      · cases hb
      · rename_i object hobj
        split at hsub
        · cases hsub
        · rename_i hi
          split at hobj
          · cases hobj
          · rename_i hj
            cases hsub
            cases hobj
            simp only [Out.bind_eq_ok, pattern_means h, Out.ok.injEq] at hb
            obtain ⟨p', hp', rfl⟩ := hb
            refine ⟨fun _ => ⟨fun h0 => hi ((OneOrMany.isEmpty_iff _).2 h0), fun h0 => hj ((OneOrMany.isEmpty_iff _).2 h0)⟩, ?_⟩
            exact ⟨p', ds₀, hp', dataset_means h hds₀, fun q => by rw [mem_dsInsert]; exact or_comm, fun hle =>
              ((((dataset_means_aux h ds [] ds₀ hds₀).2.2.2 hle .nil)).dsInsert hle _).nodup⟩

theorem nodeDataset_means {c : BuildCtx R} {s : Scope} {env : LexEnv} (h : s.Matches env) {head rest : Nat} {value : SFormat}
    {ds : Option (List (Quad SPattern))} {ds' : List (QuadPat R)} (hb : nodeDataset c s head rest value ds = .ok ds') :
    NodeDatasetMeans c env head rest (value.inputs "value") ds ds' := by
  cases ds with
  | some ds => cases value <;> exact dataset_means h hb
  | none =>
    cases value with
    | format l input graph =>
      simp only [nodeDataset] at hb
      show (∀ p, input.asSlice = [p] → _) ∧ _
      split at hb
      · rename_i p hp
        simp only [Out.bind_eq_ok, pattern_means h, Out.ok.injEq] at hb
        obtain ⟨p', hp', rfl⟩ := hb
        refine ⟨fun q hq => ?_, fun hne => ?_⟩
        · rw [hp] at hq
          cases hq
          exact ⟨p', hp', listDataset_means _ _ _ _⟩
        · simp [SFormat.inputs, hp] at hne
      · rename_i hne
        cases hb
        exact ⟨fun p hp => absurd hp (hne p), fun _ => rfl⟩
    | layout l =>
      simp only [nodeDataset, Out.bind_eq_ok, Out.ok.injEq, index_ok h] at hb
      obtain ⟨i, hi, rfl⟩ := hb
      refine ⟨fun q hq => ?_, fun hne => by simp [SFormat.inputs] at hne⟩
      simp only [SFormat.inputs, List.cons.injEq, and_true] at hq
      subst hq
      exact ⟨.var i, ⟨i, hi, rfl⟩, listDataset_means _ _ _ _⟩

/-! ## The builder -/

/-- The layouts of the builder are those of `reg`. -/
def Sees (reg : R → Option (AbsLayout R)) (b : Builder R) : Prop :=
  ∀ r e, b.layouts.lookup r = some e → reg r = some e.layout

/-- The entry is the meaning of some layout definition among `D`. -/
def Good (c : BuildCtx R) (D : LexEnv → SLayout → Prop) (reg : R → Option (AbsLayout R)) (e : Entry R) : Prop :=
  ∃ l env, D env l ∧ env.names = [] ∧ EntryMeans c reg l env e

/-- The layouts of the builder are kept. -/
def Keeps (b b' : Builder R) : Prop := ∀ r e, b.layouts.lookup r = some e → b'.layouts.lookup r = some e

/-- The new layouts of the builder are all meanings of layout definitions among `D`. -/
def News (c : BuildCtx R) (D : LexEnv → SLayout → Prop) (reg : R → Option (AbsLayout R)) (b b' : Builder R) : Prop :=
  ∀ r e, b'.layouts.lookup r = some e → b.layouts.lookup r = some e ∨ Good c D reg e

/-- The result of a successful computation satisfies `P`; the layouts of the builder are kept, and the new ones are meanings
of layout definitions among `D`. -/
def Gives {α : Type} (c : BuildCtx R) (D : LexEnv → SLayout → Prop) (x : BuildM R α) (P : (R → Option (AbsLayout R)) → α → Prop) : Prop :=
  ∀ b a b', x b = (.ok a, b') → Keeps b b' ∧ ∀ reg, Sees reg b' → News c D reg b b' ∧ P reg a

theorem Gives.pure {α : Type} {c : BuildCtx R} {D : LexEnv → SLayout → Prop} {a : α} {P : (R → Option (AbsLayout R)) → α → Prop} (h : ∀ reg, P reg a) :
    Gives c D (BuildM.pure a) P := by
  intro b a' b' he
  cases he
  exact ⟨fun _ _ h => h, fun reg _ => ⟨fun _ _ h => .inl h, h reg⟩⟩

theorem bind_ok_iff {α β : Type} {x : BuildM R α} {f : α → BuildM R β} {b b' : Builder R} {a : β} :
    (x.bind f) b = (.ok a, b') ↔ ∃ a₀ b₀, x b = (.ok a₀, b₀) ∧ f a₀ b₀ = (.ok a, b') := by
  unfold BuildM.bind
  rcases hx : x b with ⟨o, b₀⟩
  cases o <;> simp

theorem Gives.lift_bind {α β : Type} {c : BuildCtx R} {D : LexEnv → SLayout → Prop} {x : Out BuildError α} {f : α → BuildM R β}
    {Q : (R → Option (AbsLayout R)) → β → Prop} (h : ∀ a, x = .ok a → Gives c D (f a) Q) : Gives c D ((BuildM.lift x).bind f) Q := by
  intro b a b' he
  obtain ⟨a₀, b₀, h1, h2⟩ := bind_ok_iff.1 he
  simp only [BuildM.lift, Prod.mk.injEq] at h1
  obtain ⟨h1, rfl⟩ := h1
  exact h a₀ h1 b a b' h2

theorem Gives.bind {α β : Type} {c : BuildCtx R} {D : LexEnv → SLayout → Prop} {x : BuildM R α} {f : α → BuildM R β}
    {P : (R → Option (AbsLayout R)) → α → Prop} {Q : (R → Option (AbsLayout R)) → β → Prop} (hx : Gives c D x P)
    (h : ∀ a, Gives c D (f a) (fun reg b => P reg a → Q reg b)) : Gives c D (x.bind f) Q := by
  intro b a b' he
  obtain ⟨a₀, b₀, h1, h2⟩ := bind_ok_iff.1 he
  obtain ⟨k1, n1⟩ := hx b a₀ b₀ h1
  obtain ⟨k2, n2⟩ := h a₀ b₀ a b' h2
  refine ⟨fun r e h => k2 r e (k1 r e h), fun reg hs => ?_⟩
  obtain ⟨n2, q⟩ := n2 reg hs
  obtain ⟨n1, p⟩ := n1 reg fun r e h => hs r e (k2 r e h)
  refine ⟨fun r e h => ?_, q p⟩
  rcases n2 r e h with h | h
  · exact n1 r e h
  · exact .inr h

theorem Gives.imp {α : Type} {c : BuildCtx R} {D : LexEnv → SLayout → Prop} {x : BuildM R α} {P Q : (R → Option (AbsLayout R)) → α → Prop} (hx : Gives c D x P)
    (h : ∀ reg a, P reg a → Q reg a) : Gives c D x Q := by
  intro b a b' he
  obtain ⟨k, n⟩ := hx b a b' he
  exact ⟨k, fun reg hs => ⟨(n reg hs).1, h reg a (n reg hs).2⟩⟩

theorem insertLayout_ok {c : BuildCtx R} {id r : R} {e : Entry R} {b b' : Builder R}
    (h : insertLayout c id e b = (.ok r, b')) :
    r = id ∧ b.layouts.lookup id = none ∧ b' = { b with layouts := bmapInsert c.le id e b.layouts } := by
  unfold insertLayout at h
  simp only at h
  split at h
  · cases h
  · rename_i hn
    simp only [Prod.mk.injEq, Out.ok.injEq] at h
    exact ⟨h.1.symm, by simpa only [Bool.not_eq_true, Option.isSome_eq_false_iff, Option.isNone_iff_eq_none] using hn, h.2.symm⟩

theorem buildId_ok {c : BuildCtx R} {s : Scope} {env : LexEnv} (h : s.Matches env) {id : Option CompactIri} {r : R} {b b' : Builder R}
    (hb : buildId c s id b = (.ok r, b')) :
    b'.layouts = b.layouts ∧ ∀ i, id = some i → ∃ i', Expands c.lib env i i' ∧ r = c.iri i' := by
  cases id with
  | none =>
    simp only [buildId, anonymous, Prod.mk.injEq, Out.ok.injEq] at hb
    obtain ⟨-, rfl⟩ := hb
    exact ⟨rfl, by simp⟩
  | some i =>
    simp only [buildId, BuildM.lift, Prod.mk.injEq, compactIri_means h] at hb
    obtain ⟨hb, rfl⟩ := hb
    refine ⟨rfl, fun j hj => ?_⟩
    cases hj
    exact hb

theorem define_gives {c : BuildCtx R} {D : LexEnv → SLayout → Prop} {s : Scope} {env : LexEnv} (h : s.Matches env) (hn : env.names = []) {l : SLayout} (hd : D env l)
    {id : Option CompactIri} {body : BuildM R (Entry R)} (hb : Gives c D body (fun reg e => EntryMeans c reg l env e)) :
    Gives c D (defineLayout c s id body) (fun reg r => (∃ a, reg r = some a ∧ l.Means c reg env a) ∧
      ∀ i, id = some i → ∃ i', Expands c.lib env i i' ∧ r = c.iri i') := by
  intro b r b' he
  obtain ⟨r₀, b₁, h1, h2⟩ := bind_ok_iff.1 he
  obtain ⟨e, b₂, h3, h4⟩ := bind_ok_iff.1 h2
  obtain ⟨hl, hid⟩ := buildId_ok h h1
  obtain ⟨rfl, hnone, rfl⟩ := insertLayout_ok h4
  obtain ⟨k, n⟩ := hb _ _ _ h3
  have k2 : Keeps b₂ { b₂ with layouts := bmapInsert c.le r e b₂.layouts } := by
    intro r' e' h'
    show (bmapInsert c.le r e b₂.layouts).lookup r' = some e'
    rw [lookup_bmapInsert, if_neg]
    · exact h'
    · rintro rfl
      rw [hnone] at h'
      cases h'
  have k1 : Keeps b b₁ := fun r' e' h' => by rw [hl]; exact h'
  refine ⟨fun r' e' h' => k2 _ _ (k _ _ (k1 _ _ h')), fun reg hs => ?_⟩
  obtain ⟨n, m⟩ := n reg fun r' e' h' => hs r' e' (k2 r' e' h')
  refine ⟨fun r' e' h' => ?_, ⟨e.layout, hs r e ?_, m.1⟩, hid⟩
  · change (bmapInsert c.le r e b₂.layouts).lookup r' = some e' at h'
    rw [lookup_bmapInsert] at h'
    split at h'
    · cases h'
      exact .inr ⟨l, env, hd, hn, m⟩
    · rcases n r' e' h' with h' | h'
      · rw [hl] at h'
        exact .inl h'
      · exact .inr h'
  · show (bmapInsert c.le r e b₂.layouts).lookup r = some e
    rw [lookup_bmapInsert, if_pos rfl]

/-- The definition nested in the reference, if any, and those nested in it, are among `D`. -/
def RefIn (lib : IriLib) (D : LexEnv → SLayout → Prop) (env : LexEnv) (r : SLayoutRef) : Prop :=
  ∀ l, r = .layout l → ∀ env' l', SubDef lib env.nested l env' l' → D env' l'

theorem SubDef.trans {lib : IriLib} {env env₁ env₂ : LexEnv} {l l₁ l₂ : SLayout} (h : SubDef lib env l env₁ l₁)
    (h' : SubDef lib env₁ l₁ env₂ l₂) : SubDef lib env l env₂ l₂ := by
  induction h' with
  | refl => exact h
  | nested _ h1 h2 h3 ih => exact .nested ih h1 h2 h3

theorem refIn_of {lib : IriLib} {D : LexEnv → SLayout → Prop} {env env' : LexEnv} {l : SLayout} {h : LayoutHeader}
    (hd : ∀ env' l', SubDef lib env l env' l' → D env' l') (hh : l.header = some h) (ho : Opens lib env h env') (r : SLayoutRef)
    (hr : r ∈ l.refs) : RefIn lib D env' r := by
  rintro l' rfl env₂ l₂ h2
  exact hd _ _ ((SubDef.nested .refl hh ho hr).trans h2)

mutual
theorem body_gives (c : BuildCtx R) (D : LexEnv → SLayout → Prop) : ∀ (l : SLayout) (s : Scope) (env : LexEnv), s.Matches env →
    env.names = [] → (∀ env' l', SubDef c.lib env l env' l' → D env' l') →
    Gives c D (l.buildBody c s) (fun reg e => EntryMeans c reg l env e)
  | .unit h k, s, env, hs, hn, hd => by
    simp only [SLayout.buildBody]
    refine .lift_bind fun b hb => ?_
    obtain ⟨env', hm, hh, hx⟩ := header_means hs hb
    exact .pure fun reg => ⟨⟨_, env', rfl, hh, rfl⟩, env', hh.opens, hx⟩
  | .boolean h r dt, s, env, hs, hn, hd => by
    simp only [SLayout.buildBody]
    refine .lift_bind fun b hb => .lift_bind fun r hr => .lift_bind fun dt hdt => ?_
    obtain ⟨env', hm, hh, hx⟩ := header_means hs hb
    exact .pure fun reg => ⟨⟨_, env', rfl, hh, literalResource_means hm hr, datatype_means hm hdt⟩, env', hh.opens, hx⟩
  | .number h r dt, s, env, hs, hn, hd => by
    simp only [SLayout.buildBody]
    refine .lift_bind fun b hb => .lift_bind fun r hr => .lift_bind fun dt hdt => ?_
    obtain ⟨env', hm, hh, hx⟩ := header_means hs hb
    exact .pure fun reg => ⟨⟨_, env', rfl, hh, literalResource_means hm hr, (compactIri_means hm).1 hdt⟩, env', hh.opens, hx⟩
  | .byteString h r dt, s, env, hs, hn, hd => by
    simp only [SLayout.buildBody]
    refine .lift_bind fun b hb => .lift_bind fun r hr => .lift_bind fun dt hdt => ?_
    obtain ⟨env', hm, hh, hx⟩ := header_means hs hb
    exact .pure fun reg => ⟨⟨_, env', rfl, hh, literalResource_means hm hr, (compactIri_means hm).1 hdt⟩, env', hh.opens, hx⟩
  | .textString h p r dt, s, env, hs, hn, hd => by
    simp only [SLayout.buildBody]
    refine .lift_bind fun b hb => .lift_bind fun r hr => .lift_bind fun dt hdt => ?_
    obtain ⟨env', hm, hh, hx⟩ := header_means hs hb
    exact .pure fun reg => ⟨⟨_, env', rfl, hh, literalResource_means hm hr, datatype_means hm hdt⟩, env', hh.opens, hx⟩
  | .id h p r, s, env, hs, hn, hd => by
    simp only [SLayout.buildBody]
    refine .lift_bind fun b hb => .lift_bind fun r hr => ?_
    obtain ⟨env', hm, hh, hx⟩ := header_means hs hb
    exact .pure fun reg => ⟨⟨_, _, _, _, env', rfl, hh, literalResource_means hm hr⟩, env', hh.opens, hx⟩
  | .product h fields, s, env, hs, hn, hd => by
    simp only [SLayout.buildBody]
    refine .lift_bind fun b hb => ?_
    obtain ⟨env', hm, hh, hx⟩ := header_means hs hb
    have hc : h.input.len + h.intro.len = env'.names.length := by
      simp [hh.opens.names, hn, OneOrMany.len_eq]
    refine .bind (fields_give c D h.input _ fields b.scope env' hm hc fun f hf =>
      refIn_of hd rfl hh.opens _ (List.mem_map.2 ⟨f, hf, rfl⟩)) fun fs => ?_
    exact .pure fun reg hf => ⟨⟨_, env', rfl, hh, hf⟩, env', hh.opens, hx⟩
  | .sum h variants, s, env, hs, hn, hd => by
    simp only [SLayout.buildBody]
    refine .lift_bind fun b hb => ?_
    obtain ⟨env', hm, hh, hx⟩ := header_means hs hb
    refine .bind (variants_give c D variants b.scope env' hm fun f hf =>
      refIn_of hd rfl hh.opens _ (List.mem_map.2 ⟨f, hf, rfl⟩)) fun fs => ?_
    exact .pure fun reg hf => ⟨⟨_, env', rfl, hh, hf⟩, env', hh.opens, hx⟩
  | .ordered h node head tail, s, env, hs, hn, hd => by
    simp only [SLayout.buildBody]
    refine .lift_bind fun b hb => ?_
    obtain ⟨env', hm, hh, hx⟩ := header_means hs hb
    refine .bind (node_gives c D node b.scope env' hm (refIn_of hd rfl hh.opens _ (.head _))) fun fs => .lift_bind fun hd hhd => .lift_bind fun tl htl => ?_
    exact .pure fun reg hf => ⟨⟨_, env', rfl, hh, hf, (pattern_means hm).1 hhd, (pattern_means hm).1 htl⟩, env', hh.opens, hx⟩
  | .unordered h item, s, env, hs, hn, hd => by
    simp only [SLayout.buildBody]
    refine .lift_bind fun b hb => ?_
    obtain ⟨env', hm, hh, hx⟩ := header_means hs hb
    refine .bind (item_gives c D h.input item b.scope env' hm (refIn_of hd rfl hh.opens _ (.head _))) fun fs => ?_
    exact .pure fun reg hf => ⟨⟨_, env', rfl, hh, hf⟩, env', hh.opens, hx⟩
  | .sized h items, s, env, hs, hn, hd => by
    simp only [SLayout.buildBody]
    refine .lift_bind fun b hb => ?_
    obtain ⟨env', hm, hh, hx⟩ := header_means hs hb
    refine .bind (items_give c D h.input items b.scope env' hm fun f hf =>
      refIn_of hd rfl hh.opens _ (List.mem_map.2 ⟨f, hf, rfl⟩)) fun fs => ?_
    exact .pure fun reg hf => ⟨⟨_, env', rfl, hh, hf⟩, env', hh.opens, hx⟩
  | .bool true, s, env, hs, hn, hd => by
    simp only [SLayout.buildBody]
    exact .pure fun reg => ⟨rfl, rfl⟩
  | .bool false, s, env, hs, hn, hd => by
    simp only [SLayout.buildBody]
    exact .pure fun reg => ⟨rfl, rfl⟩
  | .union h, s, env, hs, hn, hd => by
    intro b a b' he
    simp [SLayout.buildBody, BuildM.lift] at he
  | .intersection h, s, env, hs, hn, hd => by
    intro b a b' he
    simp [SLayout.buildBody, BuildM.lift] at he

theorem ref_gives (c : BuildCtx R) (D : LexEnv → SLayout → Prop) : ∀ (l : SLayoutRef) (s : Scope) (env : LexEnv), s.Matches env →
    RefIn c.lib D env l →
    Gives c D (l.build c s) (fun reg r => l.Means c reg env r)
  | .ref i, s, env, hs, hd => by
    intro b a b' he
    simp only [SLayoutRef.build, BuildM.lift, Prod.mk.injEq, compactIri_means hs.withoutVariables] at he
    obtain ⟨⟨i', hi', rfl⟩, rfl⟩ := he
    refine ⟨fun _ _ h => h, fun reg _ => ⟨fun _ _ h => .inl h, i', ?_, rfl⟩⟩
    cases hi' with
    | absolute h1 h2 => exact .absolute h1 h2
    | prefixed p h1 h2 h3 => exact .prefixed p h1 h2 h3
    | relative b h1 h2 => exact .relative b h1 h2
  | .layout l, s, env, hs, hd => by
    simp only [SLayoutRef.build]
    refine (define_gives hs.withoutVariables rfl (hd l rfl _ _ .refl)
      (body_gives c D l _ _ hs.withoutVariables rfl (hd l rfl))).imp fun reg r h => ⟨h.1, fun i hi => ?_⟩
    obtain ⟨i', hi', hr⟩ := h.2 i (layoutId_eq_some.2 hi)
    refine ⟨i', ?_, hr⟩
    cases hi' with
    | absolute h1 h2 => exact .absolute h1 h2
    | prefixed p h1 h2 h3 => exact .prefixed p h1 h2 h3
    | relative b h1 h2 => exact .relative b h1 h2

theorem format_gives (c : BuildCtx R) (D : LexEnv → SLayout → Prop) (default : String) : ∀ (f : SFormat) (s : Scope) (env : LexEnv),
    s.Matches env → RefIn c.lib D env f.ref →
    Gives c D (f.build c default s) (fun reg f' => f.Means c reg default env f')
  | .format l input graph, s, env, hs, hd => by
    simp only [SFormat.build]
    refine .lift_bind fun is his => .bind (ref_gives c D l s env hs hd) fun r => .lift_bind fun g hg => ?_
    exact .pure fun reg hr => ⟨hr, inputs_means hs his, graph_means hs hg⟩
  | .layout l, s, env, hs, hd => by
    simp only [SFormat.build]
    refine .bind (ref_gives c D l s env hs hd) fun r => .lift_bind fun p hp => ?_
    obtain ⟨i, hi, rfl⟩ := (pattern_means hs).1 hp
    exact .pure fun reg hr => ⟨hr, ⟨i, hi, rfl⟩, rfl⟩

theorem fields_give (c : BuildCtx R) (D : LexEnv → SLayout → Prop) (input : OneOrMany String) (count : Nat) :
    ∀ (fs : List (Value × SField)) (s : Scope) (env : LexEnv), s.Matches env → count = env.names.length →
    (∀ f ∈ fs, RefIn c.lib D env f.2.ref) →
    Gives c D (buildFields c (subjectOf input) count fs s) (fun reg fs' => FieldsMean c reg input fs env fs')
  | [], s, env, hs, hc, hd => by
    simp only [buildFields]
    exact .pure fun _ => rfl
  | (name, f) :: fs, s, env, hs, hc, hd => by
    simp only [buildFields]
    refine .bind (field_gives c D input count f s env hs hc (hd _ (.head _))) fun f' => .bind (fields_give c D input count fs s env hs hc fun f hf =>
      hd f (.tail _ hf)) fun fs' => ?_
    exact .pure fun reg h1 h2 => ⟨f', fs', rfl, h2, h1⟩

theorem field_gives (c : BuildCtx R) (D : LexEnv → SLayout → Prop) (input : OneOrMany String) (count : Nat) :
    ∀ (f : SField) (s : Scope) (env : LexEnv), s.Matches env → count = env.names.length → RefIn c.lib D env f.ref →
    Gives c D (f.build c (subjectOf input) count s) (fun reg f' => f.Means c reg input env f')
  | .mk intro value ds property required, s, env, hs, hc, hd => by
    simp only [SField.build]
    refine .lift_bind fun ds' hds' => .bind (format_gives c D "value" value _ _ (hs.withIntro intro.asSlice) hd) fun v => ?_
    obtain ⟨h1, h2⟩ := propDataset_means (hs.withIntro intro.asSlice) hds'
    refine .pure fun reg hv => ⟨OneOrMany.len_eq _, rfl, hv, h1, ?_⟩
    rw [← hc]
    exact h2

theorem variants_give (c : BuildCtx R) (D : LexEnv → SLayout → Prop) : ∀ (vs : List (String × SVariant)) (s : Scope) (env : LexEnv),
    s.Matches env → (∀ v ∈ vs, RefIn c.lib D env v.2.ref) →
    Gives c D (buildVariants c vs s) (fun reg vs' => VariantsMean c reg vs env vs')
  | [], s, env, hs, hd => by
    simp only [buildVariants]
    exact .pure fun _ => rfl
  | (name, v) :: vs, s, env, hs, hd => by
    simp only [buildVariants]
    refine .bind (variant_gives c D name v s env hs (hd _ (.head _))) fun f' => .bind (variants_give c D vs s env hs fun f hf => hd f (.tail _ hf)) fun fs' => ?_
    exact .pure fun reg h1 h2 => ⟨f', fs', rfl, h2.1, h2.2, h1⟩

theorem variant_gives (c : BuildCtx R) (D : LexEnv → SLayout → Prop) (name : String) : ∀ (v : SVariant) (s : Scope) (env : LexEnv),
    s.Matches env → RefIn c.lib D env v.ref →
    Gives c D (v.build c name s) (fun reg v' => v'.name = name ∧ v.Means c reg env v')
  | .mk intro value ds, s, env, hs, hd => by
    simp only [SVariant.build]
    refine .bind (format_gives c D "self" value _ _ (hs.withIntro intro.asSlice) hd) fun v => .lift_bind fun ds' hds' => ?_
    exact .pure fun reg hv => ⟨rfl, OneOrMany.len_eq _, hv, dataset_means (hs.withIntro intro.asSlice) hds'⟩

theorem items_give (c : BuildCtx R) (D : LexEnv → SLayout → Prop) (input : OneOrMany String) : ∀ (is : List SItem) (s : Scope)
    (env : LexEnv), s.Matches env → (∀ i ∈ is, RefIn c.lib D env i.ref) →
    Gives c D (buildItems c (subjectOf input) is s) (fun reg is' => ItemsMean c reg input is env is')
  | [], s, env, hs, hd => by
    simp only [buildItems]
    exact .pure fun _ => rfl
  | i :: is, s, env, hs, hd => by
    simp only [buildItems]
    refine .bind (item_gives c D input i s env hs (hd _ (.head _))) fun f' => .bind (items_give c D input is s env hs fun f hf => hd f (.tail _ hf)) fun fs' => ?_
    exact .pure fun reg h1 h2 => ⟨f', fs', rfl, h2, h1⟩

theorem item_gives (c : BuildCtx R) (D : LexEnv → SLayout → Prop) (input : OneOrMany String) : ∀ (i : SItem) (s : Scope)
    (env : LexEnv), s.Matches env → RefIn c.lib D env i.ref →
    Gives c D (i.build c (subjectOf input) s) (fun reg i' => i.Means c reg input env i')
  | .mk intro value ds property, s, env, hs, hd => by
    simp only [SItem.build]
    refine .lift_bind fun ds' hds' => .bind (format_gives c D "value" value _ _ (hs.withIntro intro.asSlice) hd) fun v => ?_
    obtain ⟨h1, h2⟩ := propDataset_means (hs.withIntro intro.asSlice) hds'
    refine .pure fun reg hv => ⟨OneOrMany.len_eq _, hv, h1, ?_⟩
    rw [← hs.count]
    exact h2

theorem node_gives (c : BuildCtx R) (D : LexEnv → SLayout → Prop) : ∀ (n : SNode) (s : Scope) (env : LexEnv), s.Matches env →
    RefIn c.lib D env n.ref →
    Gives c D (n.build c s) (fun reg n' => n.Means c reg env n')
  | .node head rest intro value ds, s, env, hs, hd => by
    simp only [SNode.build]
    refine .bind (format_gives c D "value" value _ _ (hs.withIntro _) hd) fun v => .lift_bind fun ds' hds' => ?_
    refine .pure fun reg hv => ⟨OneOrMany.len_eq _, hv, ?_⟩
    rw [← hs.count]
    exact nodeDataset_means (hs.withIntro _) hds'
  | .layout r, s, env, hs, hd => by
    simp only [SNode.build]
    refine .bind (ref_gives c D r s env hs hd) fun r' => ?_
    refine .pure fun reg hr => ⟨rfl, hr, ?_, rfl, ?_⟩
    · rw [← hs.count]
    · rw [← hs.count]
      exact listDataset_means _ _ _ _
end

end Verif
