import Verif.SyntaxLemmas

/-!
# What compilation does to the builder, whatever its outcome
-/

set_option linter.unusedSectionVars false
set_option linter.unusedSimpArgs false
set_option linter.unnecessarySimpa false

namespace Verif

variable {R : Type} [DecidableEq R]

/-- Generated resources are distinct from each other and from IRIs. -/
structure BuildCtx.FreshLaws (c : BuildCtx R) : Prop where
  inj : ∀ m n, c.fresh m = c.fresh n → m = n
  notIri : ∀ m i, c.fresh m ≠ c.iri i

/-- The resources still to be generated are not in use. -/
def FreshUnused (c : BuildCtx R) (b : Builder R) : Prop := ∀ n, b.next ≤ n → b.layouts.lookup (c.fresh n) = none

/-- What a computation does to the builder, whatever its outcome. -/
structure Safe1 (c : BuildCtx R) (named : Bool) (b b' : Builder R) (redef : Prop) : Prop where
  next : b.next ≤ b'.next
  /-- new identifiers are explicit IRIs, or freshly generated -/
  adds : ∀ r e, b'.layouts.lookup r = some e → (b.layouts.lookup r).isSome = true ∨ (named = true ∧ ∃ i, r = c.iri i) ∨
    ∃ m, b.next ≤ m ∧ m < b'.next ∧ r = c.fresh m
  /-- nothing is removed or changed, unless a redefinition is reported -/
  keeps : ¬ redef → Keeps b b'
  /-- a redefinition changes at most one layout -/
  damage : redef → ∃ r, ∀ r' e, r' ≠ r → b.layouts.lookup r' = some e → b'.layouts.lookup r' = some e
  /-- identifiers remain defined -/
  stays : ∀ r, (b.layouts.lookup r).isSome = true → (b'.layouts.lookup r).isSome = true
  /-- a redefinition is due to an explicit identifier -/
  named : c.FreshLaws → FreshUnused c b → redef → named = true
  /-- identifiers are listed once -/
  nodup : ¬ redef → (b.layouts.map Prod.fst).Nodup → (b'.layouts.map Prod.fst).Nodup

/-- See `Safe1`. -/
def Safe {α : Type} (c : BuildCtx R) (named : Bool) (x : BuildM R α) : Prop :=
  ∀ b o b', x b = (o, b') → Safe1 c named b b' (o = .err .layoutRedefinition)

theorem Safe1.refl {c : BuildCtx R} {named : Bool} {b : Builder R} {p : Prop} (hp : ¬ p) : Safe1 c named b b p :=
  ⟨Nat.le_refl _, fun r e h => .inl (by simp [h]), fun _ _ _ h => h, fun h => absurd h hp, fun _ h => h, fun _ _ h => absurd h hp,
    fun _ h => h⟩

theorem Safe.pure {α : Type} {c : BuildCtx R} {named : Bool} {a : α} : Safe c named (BuildM.pure a) := by
  intro b o b' h
  simp only [BuildM.pure, Prod.mk.injEq] at h
  obtain ⟨rfl, rfl⟩ := h
  exact .refl (by simp)

theorem Safe1.mono {c : BuildCtx R} {n n' : Bool} {b b' : Builder R} {p : Prop} (h : Safe1 c n b b' p)
    (hn : n = true → n' = true) : Safe1 c n' b b' p :=
  ⟨h.next, fun r e he => (h.adds r e he).imp_right (Or.imp_left (And.imp_left hn)), h.keeps, h.damage, h.stays,
    fun h1 h2 h3 => hn (h.named h1 h2 h3), h.nodup⟩

theorem Safe.mono {α : Type} {c : BuildCtx R} {n n' : Bool} {x : BuildM R α} (h : Safe c n x) (hn : n = true → n' = true) :
    Safe c n' x := fun b o b' he => (h b o b' he).mono hn

/-- After a successful computation, the resources still to be generated are not in use. -/
theorem Safe1.fresh {c : BuildCtx R} {n : Bool} {b b' : Builder R} {p : Prop} (h : Safe1 c n b b' p) (hc : c.FreshLaws)
    (hf : FreshUnused c b) : FreshUnused c b' := by
  intro m hm
  cases hl : b'.layouts.lookup (c.fresh m) with
  | none => rfl
  | some e =>
    rcases h.adds _ _ hl with h1 | ⟨-, i, h1⟩ | ⟨m', h1, h2, h3⟩
    · rw [hf m (Nat.le_trans h.next hm)] at h1
      cases h1
    · exact absurd h1 (hc.notIri _ _)
    · have := hc.inj _ _ h3
      omega

theorem Safe1.trans {c : BuildCtx R} {n : Bool} {b b₁ b' : Builder R} {p q : Prop} (h1 : Safe1 c n b b₁ q) (hq : ¬ q)
    (h2 : Safe1 c n b₁ b' p) : Safe1 c n b b' p := by
  refine ⟨Nat.le_trans h1.next h2.next, ?_, ?_, ?_, fun r h => h2.stays r (h1.stays r h), ?_,
    fun hp hd => h2.nodup hp (h1.nodup hq hd)⟩
  · intro r e h
    rcases h2.adds r e h with h | h | ⟨m, hm1, hm2, hm3⟩
    · obtain ⟨e', he'⟩ := Option.isSome_iff_exists.1 h
      rcases h1.adds r e' he' with h | h | ⟨m, hm1, hm2, hm3⟩
      · exact .inl h
      · exact .inr (.inl h)
      · exact .inr (.inr ⟨m, hm1, Nat.lt_of_lt_of_le hm2 h2.next, hm3⟩)
    · exact .inr (.inl h)
    · exact .inr (.inr ⟨m, Nat.le_trans h1.next hm1, hm2, hm3⟩)
  · intro hp r e h
    exact h2.keeps hp r e (h1.keeps hq r e h)
  · intro hp
    obtain ⟨r, hr⟩ := h2.damage hp
    exact ⟨r, fun r' e hne h => hr r' e hne (h1.keeps hq r' e h)⟩
  · intro hc hf hp
    exact h2.named hc (h1.fresh hc hf) hp

theorem Safe1.congr {c : BuildCtx R} {n : Bool} {b b' : Builder R} {p q : Prop} (h : Safe1 c n b b' p) (hpq : p ↔ q) :
    Safe1 c n b b' q := by
  have : p = q := propext hpq
  subst this
  exact h

theorem Safe.bind {α β : Type} {c : BuildCtx R} {n : Bool} {x : BuildM R α} {f : α → BuildM R β} (hx : Safe c n x)
    (hf : ∀ a, Safe c n (f a)) : Safe c n (x.bind f) := by
  intro b o b' h
  unfold BuildM.bind at h
  rcases hxb : x b with ⟨o₁, b₁⟩
  rw [hxb] at h
  have h1 := hx _ _ _ hxb
  cases o₁ with
  | ok a => exact h1.trans (by simp) (hf a _ _ _ h)
  | err e =>
    simp only [Prod.mk.injEq] at h
    obtain ⟨rfl, rfl⟩ := h
    exact h1.congr (by simp)
  | panic =>
    simp only [Prod.mk.injEq] at h
    obtain ⟨rfl, rfl⟩ := h
    exact h1.congr (by simp)
  | fuel =>
    simp only [Prod.mk.injEq] at h
    obtain ⟨rfl, rfl⟩ := h
    exact h1.congr (by simp)

/-- A computation without the builder does not report a redefinition. -/
def NoRedef {α : Type} (x : Out BuildError α) : Prop := x ≠ .err .layoutRedefinition

theorem Safe.lift {α : Type} {c : BuildCtx R} {n : Bool} {x : Out BuildError α} (h : NoRedef x) : Safe c n (BuildM.lift x) := by
  intro b o b' he
  simp only [BuildM.lift, Prod.mk.injEq] at he
  obtain ⟨rfl, rfl⟩ := he
  exact .refl h

theorem Safe.lift_bind {α β : Type} {c : BuildCtx R} {n : Bool} {x : Out BuildError α} {f : α → BuildM R β} (h : NoRedef x)
    (hf : ∀ a, Safe c n (f a)) : Safe c n ((BuildM.lift x).bind f) := (Safe.lift h).bind hf

theorem NoRedef.ok {α : Type} {a : α} : NoRedef (.ok a) := by simp [NoRedef]

theorem NoRedef.bind {α β : Type} {x : Out BuildError α} {f : α → Out BuildError β} (hx : NoRedef x) (hf : ∀ a, NoRedef (f a)) :
    NoRedef (x.bind f) := by
  cases x with
  | ok a => exact hf a
  | err e => simpa [NoRedef] using hx
  | panic => simp [NoRedef]
  | fuel => simp [NoRedef]

theorem noRedef_resolve (lib : IriLib) (s : Scope) (i : CompactIri) : NoRedef (CompactIri.resolve lib s i) := by
  unfold CompactIri.resolve NoRedef
  split
  · split
    · dsimp only
      split <;> simp
    · simp
  · split <;> simp

theorem noRedef_index (s : Scope) (x : String) : NoRedef (s.index x) := by
  unfold Scope.index NoRedef
  split <;> simp

theorem noRedef_pattern (c : BuildCtx R) (s : Scope) (p : SPattern) : NoRedef (p.build c s) := by
  cases p with
  | var x => exact (noRedef_index _ _).bind fun _ => .ok
  | iri i => exact (noRedef_resolve _ _ _).bind fun _ => .ok
  | literal v ty =>
    refine NoRedef.bind ?_ fun _ => .ok
    cases ty with
    | iri i => exact (noRedef_resolve _ _ _).bind fun _ => .ok
    | language t => exact .ok

theorem noRedef_quad (c : BuildCtx R) (s : Scope) (q : Quad SPattern) : NoRedef (SQuad.build c s q) := by
  refine (noRedef_pattern _ _ _).bind fun _ => (noRedef_pattern _ _ _).bind fun _ => (noRedef_pattern _ _ _).bind fun _ =>
    NoRedef.bind ?_ fun _ => .ok
  cases q.g with
  | none => exact .ok
  | some g => exact (noRedef_pattern _ _ _).bind fun _ => .ok

theorem noRedef_dataset (c : BuildCtx R) (s : Scope) (ds : List (Quad SPattern)) (acc : List (QuadPat R)) :
    NoRedef (SDataset.build c s ds acc) := by
  induction ds generalizing acc with
  | nil => exact .ok
  | cons q ds ih => exact (noRedef_quad _ _ _).bind fun _ => ih _

theorem noRedef_iri (c : BuildCtx R) (s : Scope) (i : CompactIri) : NoRedef (CompactIri.build c s i) :=
  (noRedef_resolve _ _ _).bind fun _ => .ok

theorem noRedef_extra (c : BuildCtx R) (s : Scope) (es : List (CompactIri × SResource)) (acc : List (R × R)) :
    NoRedef (buildExtra c s es acc) := by
  induction es generalizing acc with
  | nil => exact .ok
  | cons e es ih =>
    refine (noRedef_iri _ _ _).bind fun _ => NoRedef.bind ?_ fun _ => ih _
    cases e.2 with
    | typed v ty => exact (noRedef_resolve _ _ _).bind fun _ => .ok
    | _ => exact .ok

theorem noRedef_newPrefixes (lib : IriLib) (s : Scope) (ps : List (String × CompactIri)) (acc : List (String × String)) :
    NoRedef (s.newPrefixes lib ps acc) := by
  induction ps generalizing acc with
  | nil => exact .ok
  | cons e es ih => exact (noRedef_resolve _ _ _).bind fun _ => ih _

theorem noRedef_header (c : BuildCtx R) (s : Scope) (h : LayoutHeader) : NoRedef (h.build c s) := by
  refine NoRedef.bind (NoRedef.bind ?_ fun _ => (noRedef_newPrefixes _ _ _ _).bind fun _ => .ok) fun _ =>
    (noRedef_dataset _ _ _ _).bind fun _ => (noRedef_extra _ _ _ _).bind fun _ => .ok
  cases h.base with
  | none => exact .ok
  | some b => exact (noRedef_resolve _ _ _).bind fun _ => .ok

theorem noRedef_literalResource (c : BuildCtx R) (s : Scope) (i : OneOrMany String) (r : Option SPattern) :
    NoRedef (literalResource c s i r) := by
  cases r with
  | some p => exact noRedef_pattern _ _ _
  | none =>
    unfold literalResource NoRedef
    dsimp only
    split <;> simp

theorem noRedef_datatype (c : BuildCtx R) (s : Scope) (d : String) (i : Option CompactIri) : NoRedef (buildDatatype c s d i) := by
  cases i with
  | some i => exact noRedef_iri _ _ _
  | none => exact .ok

theorem noRedef_inputs (c : BuildCtx R) (s : Scope) (l : List SPattern) : NoRedef (buildInputs c s l) := by
  unfold buildInputs
  induction l with
  | nil => exact .ok
  | cons p l ih => exact (noRedef_pattern _ _ _).bind fun _ => ih.bind fun _ => .ok

theorem noRedef_graph (c : BuildCtx R) (s : Scope) (g : Option (Option SPattern)) : NoRedef (buildGraph c s g) := by
  match g with
  | none => exact .ok
  | some none => exact .ok
  | some (some p) => exact (noRedef_pattern _ _ _).bind fun _ => .ok

theorem noRedef_propDataset (c : BuildCtx R) (s : Scope) (a b : Option Nat) (ds : List (Quad SPattern)) (p : Option SPattern) :
    NoRedef (buildPropDataset c s a b ds p) := by
  cases p with
  | none => exact noRedef_dataset _ _ _ _
  | some p =>
    refine (noRedef_dataset _ _ _ _).bind fun _ => ?_
    cases a with
    | none => simp [NoRedef]
    | some a =>
      cases b with
      | none => simp [NoRedef]
      | some b => exact (noRedef_pattern _ _ _).bind fun _ => .ok

theorem noRedef_nodeDataset (c : BuildCtx R) (s : Scope) (a b : Nat) (v : SFormat) (ds : Option (List (Quad SPattern))) :
    NoRedef (nodeDataset c s a b v ds) := by
  cases ds with
  | some ds => cases v <;> exact noRedef_dataset _ _ _ _
  | none =>
    cases v with
    | format l input graph =>
      unfold nodeDataset
      split
      · rename_i ha hb
        cases hb
      · rename_i ha hb
        cases ha
        split
        · exact (noRedef_pattern _ _ _).bind fun _ => .ok
        · exact .ok
      · rename_i ha hb
        cases ha
    | layout l => exact (noRedef_index _ _).bind fun _ => .ok

theorem insertLayout_spec (c : BuildCtx R) (id : R) (e : Entry R) (b b' : Builder R) (o : Out BuildError R)
    (h : insertLayout c id e b = (o, b')) : b' = { b with layouts := bmapInsert c.le id e b.layouts } ∧
      ((b.layouts.lookup id).isSome = true ∧ o = .err .layoutRedefinition ∨ b.layouts.lookup id = none ∧ o = .ok id) := by
  unfold insertLayout at h
  simp only at h
  split at h
  · rename_i hs
    simp only [Prod.mk.injEq] at h
    exact ⟨h.2.symm, .inl ⟨hs, h.1.symm⟩⟩
  · rename_i hs
    simp only [Prod.mk.injEq] at h
    refine ⟨h.2.symm, .inr ⟨?_, h.1.symm⟩⟩
    simpa only [Bool.not_eq_true, Option.isSome_eq_false_iff, Option.isNone_iff_eq_none] using hs

theorem bmapInsert_perm {κ α : Type} [DecidableEq κ] (le : κ → κ → Bool) (k : κ) (v : α) (m : List (κ × α))
    (h : m.lookup k = none) : (bmapInsert le k v m).Perm ((k, v) :: m) := by
  induction m with
  | nil => exact .refl _
  | cons x m ih =>
    obtain ⟨k', v'⟩ := x
    rw [lookup_cons_ite] at h
    unfold bmapInsert
    split
    · rename_i hk
      subst hk
      simp at h
    · split
      · exact .refl _
      · rename_i hk _
        rw [if_neg hk] at h
        exact ((ih h).cons _).trans (.swap _ _ _)

theorem lookup_none_iff {κ α : Type} [DecidableEq κ] {k : κ} {m : List (κ × α)} : m.lookup k = none ↔ k ∉ m.map Prod.fst := by
  induction m with
  | nil => simp
  | cons x m ih =>
    obtain ⟨k', v'⟩ := x
    rw [lookup_cons_ite, List.map_cons, List.mem_cons]
    split
    · simp_all
    · simp_all

theorem insertLayout_nodup {c : BuildCtx R} {id : R} {e : Entry R} {b : Builder R} {o : Out BuildError R}
    (hcase : (b.layouts.lookup id).isSome = true ∧ o = .err .layoutRedefinition ∨ b.layouts.lookup id = none ∧ o = .ok id)
    (hn : ¬ o = .err .layoutRedefinition) (hd : (b.layouts.map Prod.fst).Nodup) :
    ((bmapInsert c.le id e b.layouts).map Prod.fst).Nodup := by
  rcases hcase with ⟨-, h⟩ | ⟨h, -⟩
  · exact absurd h hn
  · rw [((bmapInsert_perm c.le id e _ h).map Prod.fst).nodup_iff, List.map_cons, List.nodup_cons]
    exact ⟨lookup_none_iff.1 h, hd⟩

theorem insertLayout_safe (c : BuildCtx R) (id : R) (hid : (∃ i, id = c.iri i)) (e : Entry R) : Safe c true (insertLayout c id e) := by
  intro b o b' h
  obtain ⟨rfl, hcase⟩ := insertLayout_spec _ _ _ _ _ _ h
  have hl : ∀ r, ({ b with layouts := bmapInsert c.le id e b.layouts } : Builder R).layouts.lookup r =
      if r = id then some e else b.layouts.lookup r := fun r => lookup_bmapInsert _ _ _ _ _
  refine ⟨Nat.le_refl _, ?_, ?_, ?_, ?_, fun _ _ _ => rfl, insertLayout_nodup hcase⟩
  · intro r e' h'
    rw [hl] at h'
    split at h'
    · rename_i hr
      subst hr
      exact .inr (.inl ⟨rfl, hid⟩)
    · exact .inl (by simp [h'])
  · intro hn r e' h'
    rcases hcase with ⟨h1, h2⟩ | ⟨h1, h2⟩
    · exact absurd h2 hn
    · rw [hl, if_neg]
      · exact h'
      · rintro rfl
        rw [h1] at h'
        cases h'
  · intro _
    refine ⟨id, fun r' e' hne h' => ?_⟩
    rw [hl, if_neg hne]
    exact h'
  · intro r hr
    rw [hl]
    split
    · rfl
    · exact hr

theorem define_safe {c : BuildCtx R} {s : Scope} {id : Option CompactIri} {n : Bool} {body : BuildM R (Entry R)}
    (hb : Safe c n body) : Safe c (id.isSome || n) (defineLayout c s id body) := by
  cases id with
  | some i =>
    intro b o b' h
    have hx : (defineLayout c s (some i) body) b = ((BuildM.lift (CompactIri.build c s i)).bind fun r => body.bind fun e =>
      insertLayout c r e) b := rfl
    rw [hx] at h
    cases hi : CompactIri.build c s i with
    | ok r =>
      rw [hi] at h
      have hr : ∃ i', r = c.iri i' := by
        simp only [CompactIri.build, bind_ok_eq] at hi
        obtain ⟨i', _, h⟩ := hi
        exact ⟨i', h⟩
      have : Safe c true (body.bind fun e => insertLayout c r e) :=
        Safe.bind (hb.mono fun _ => rfl) fun e => insertLayout_safe c r hr e
      exact (this b o b' h).mono fun _ => by simp
    | err e =>
      rw [hi] at h
      have hh := noRedef_iri c s i
      rw [hi] at hh
      simp only [BuildM.bind, BuildM.lift, Prod.mk.injEq] at h
      obtain ⟨rfl, rfl⟩ := h
      exact .refl (by simpa [NoRedef] using hh)
    | panic =>
      rw [hi] at h
      simp only [BuildM.bind, BuildM.lift, Prod.mk.injEq] at h
      obtain ⟨rfl, rfl⟩ := h
      exact .refl (by simp)
    | fuel =>
      rw [hi] at h
      simp only [BuildM.bind, BuildM.lift, Prod.mk.injEq] at h
      obtain ⟨rfl, rfl⟩ := h
      exact .refl (by simp)
  | none =>
    intro b o b' h
    have hx : (defineLayout c s none body) b =
      (body.bind fun e => insertLayout c (c.fresh b.next) e) { b with next := b.next + 1 } := rfl
    rw [hx] at h
    simp only [Option.isSome_none, Bool.false_or]
    unfold BuildM.bind at h
    rcases hbb : body { b with next := b.next + 1 } with ⟨o₁, b₁⟩
    rw [hbb] at h
    have h1 := hb _ _ _ hbb
    -- widening of the first step
    have hw : ∀ {p : Prop}, Safe1 c n { b with next := b.next + 1 } b₁ p → Safe1 c n b b₁ p := by
      intro p hp
      refine ⟨Nat.le_trans (Nat.le_succ _) hp.next, ?_, hp.keeps, hp.damage, hp.stays, ?_, hp.nodup⟩
      · intro r e he
        rcases hp.adds r e he with h | h | ⟨m, hm1, hm2, hm3⟩
        · exact .inl h
        · exact .inr (.inl h)
        · exact .inr (.inr ⟨m, by simp only at hm1; omega, hm2, hm3⟩)
      · intro hc hf
        exact hp.named hc fun m hm => hf m (by simp only at hm; omega)
    cases o₁ with
    | err e =>
      simp only [Prod.mk.injEq] at h
      obtain ⟨rfl, rfl⟩ := h
      exact (hw h1).congr (by simp)
    | panic =>
      simp only [Prod.mk.injEq] at h
      obtain ⟨rfl, rfl⟩ := h
      exact (hw h1).congr (by simp)
    | fuel =>
      simp only [Prod.mk.injEq] at h
      obtain ⟨rfl, rfl⟩ := h
      exact (hw h1).congr (by simp)
    | ok e =>
      have hw1 := hw h1
      have hlt : b.next < b₁.next := by
        have := h1.next
        simp only at this
        omega
      obtain ⟨rfl, hcase⟩ := insertLayout_spec _ _ _ _ _ _ h
      have hl : ∀ r, ({ b₁ with layouts := bmapInsert c.le (c.fresh b.next) e b₁.layouts } : Builder R).layouts.lookup r =
          if r = c.fresh b.next then some e else b₁.layouts.lookup r := fun r => lookup_bmapInsert _ _ _ _ _
      refine ⟨hw1.next, ?_, ?_, ?_, ?_, ?_, fun hn hd => insertLayout_nodup hcase hn (hw1.nodup (by simp) hd)⟩
      · intro r e' h'
        rw [hl] at h'
        split at h'
        · rename_i hr
          exact .inr (.inr ⟨b.next, Nat.le_refl _, hlt, hr⟩)
        · exact hw1.adds r e' h'
      · intro hn r e' h'
        have h'' := hw1.keeps (by simp) r e' h'
        rcases hcase with ⟨h1, h2⟩ | ⟨h1, h2⟩
        · exact absurd h2 hn
        · rw [hl, if_neg]
          · exact h''
          · rintro rfl
            rw [h1] at h''
            cases h''
      · intro _
        refine ⟨c.fresh b.next, fun r' e' hne h' => ?_⟩
        rw [hl, if_neg hne]
        exact hw1.keeps (by simp) r' e' h'
      · intro r hr
        rw [hl]
        split
        · rfl
        · exact hw1.stays r hr
      · intro hc hf hredef
        exfalso
        rcases hcase with ⟨h3, h2⟩ | ⟨h3, h2⟩
        · obtain ⟨e', he'⟩ := Option.isSome_iff_exists.1 h3
          rcases h1.adds _ _ he' with h | ⟨-, i, h⟩ | ⟨m, hm1, hm2, hm3⟩
          · have := hf b.next (Nat.le_refl _)
            simp only at h
            rw [this] at h
            cases h
          · exact hc.notIri _ _ h
          · have := hc.inj _ _ hm3
            simp only at hm1
            omega
        · rw [h2] at hredef
          cases hredef

mutual
theorem body_safe (c : BuildCtx R) : ∀ (l : SLayout) (s : Scope), Safe c l.named (l.buildBody c s)
  | .unit h k, s => by
    simp only [SLayout.buildBody]
    exact .lift_bind (noRedef_header _ _ _) fun b => .pure
  | .boolean h r dt, s => by
    simp only [SLayout.buildBody]
    exact .lift_bind (noRedef_header _ _ _) fun b => .lift_bind (noRedef_literalResource _ _ _ _) fun r =>
      .lift_bind (noRedef_datatype _ _ _ _) fun dt => .pure
  | .number h r dt, s => by
    simp only [SLayout.buildBody]
    exact .lift_bind (noRedef_header _ _ _) fun b => .lift_bind (noRedef_literalResource _ _ _ _) fun r =>
      .lift_bind (noRedef_iri _ _ _) fun dt => .pure
  | .byteString h r dt, s => by
    simp only [SLayout.buildBody]
    exact .lift_bind (noRedef_header _ _ _) fun b => .lift_bind (noRedef_literalResource _ _ _ _) fun r =>
      .lift_bind (noRedef_iri _ _ _) fun dt => .pure
  | .textString h p r dt, s => by
    simp only [SLayout.buildBody]
    exact .lift_bind (noRedef_header _ _ _) fun b => .lift_bind (noRedef_literalResource _ _ _ _) fun r =>
      .lift_bind (noRedef_datatype _ _ _ _) fun dt => .pure
  | .id h p r, s => by
    simp only [SLayout.buildBody]
    exact .lift_bind (noRedef_header _ _ _) fun b => .lift_bind (noRedef_literalResource _ _ _ _) fun r => .pure
  | .product h fields, s => by
    simp only [SLayout.buildBody]
    refine .lift_bind (noRedef_header _ _ _) fun b => .bind ?_ fun fs => .pure
    exact (fields_safe c _ _ fields _).mono fun h => by simp [SLayout.named, h]
  | .sum h variants, s => by
    simp only [SLayout.buildBody]
    refine .lift_bind (noRedef_header _ _ _) fun b => .bind ?_ fun fs => .pure
    exact (variants_safe c variants _).mono fun h => by simp [SLayout.named, h]
  | .ordered h node head tail, s => by
    simp only [SLayout.buildBody]
    refine .lift_bind (noRedef_header _ _ _) fun b => .bind ?_ fun fs => .lift_bind (noRedef_pattern _ _ _) fun hd =>
      .lift_bind (noRedef_pattern _ _ _) fun tl => .pure
    exact (node_safe c node _).mono fun h => by simp [SLayout.named, h]
  | .unordered h item, s => by
    simp only [SLayout.buildBody]
    refine .lift_bind (noRedef_header _ _ _) fun b => .bind ?_ fun fs => .pure
    exact (item_safe c _ item _).mono fun h => by simp [SLayout.named, h]
  | .sized h items, s => by
    simp only [SLayout.buildBody]
    refine .lift_bind (noRedef_header _ _ _) fun b => .bind ?_ fun fs => .pure
    exact (items_safe c _ items _).mono fun h => by simp [SLayout.named, h]
  | .bool true, s => by
    simp only [SLayout.buildBody]
    exact .pure
  | .bool false, s => by
    simp only [SLayout.buildBody]
    exact .pure
  | .union h, s => by
    simp only [SLayout.buildBody]
    exact .lift (by simp [NoRedef])
  | .intersection h, s => by
    simp only [SLayout.buildBody]
    exact .lift (by simp [NoRedef])

theorem ref_safe (c : BuildCtx R) : ∀ (l : SLayoutRef) (s : Scope), Safe c l.named (l.build c s)
  | .ref i, s => by
    simp only [SLayoutRef.build]
    exact .lift (noRedef_iri _ _ _)
  | .layout l, s => by
    simp only [SLayoutRef.build]
    refine (define_safe (body_safe c l _)).mono fun h => ?_
    simp only [SLayoutRef.named]
    cases l <;> simpa [SLayout.layoutId, SLayout.named] using h

theorem format_safe (c : BuildCtx R) (default : String) : ∀ (f : SFormat) (s : Scope), Safe c f.named (f.build c default s)
  | .format l input graph, s => by
    simp only [SFormat.build]
    exact .lift_bind (noRedef_inputs _ _ _) fun is => .bind (ref_safe c l s) fun r => .lift_bind (noRedef_graph _ _ _) fun g => .pure
  | .layout l, s => by
    simp only [SFormat.build]
    exact .bind (ref_safe c l s) fun r => .lift_bind (noRedef_pattern _ _ _) fun p => .pure

theorem fields_safe (c : BuildCtx R) (subject : Option Nat) (count : Nat) : ∀ (fs : List (Value × SField)) (s : Scope),
    Safe c (fieldsNamed fs) (buildFields c subject count fs s)
  | [], s => by
    simp only [buildFields]
    exact .pure
  | (name, f) :: fs, s => by
    simp only [buildFields]
    exact .bind ((field_safe c subject count f s).mono fun h => by simp [fieldsNamed, h]) fun f' =>
      .bind ((fields_safe c subject count fs s).mono fun h => by simp [fieldsNamed, h]) fun fs' => .pure

theorem field_safe (c : BuildCtx R) (subject : Option Nat) (count : Nat) : ∀ (f : SField) (s : Scope),
    Safe c f.named (f.build c subject count s)
  | .mk intro value ds property required, s => by
    simp only [SField.build]
    exact .lift_bind (noRedef_propDataset _ _ _ _ _ _) fun ds' => .bind (format_safe c _ value _) fun v => .pure

theorem variants_safe (c : BuildCtx R) : ∀ (vs : List (String × SVariant)) (s : Scope),
    Safe c (variantsNamed vs) (buildVariants c vs s)
  | [], s => by
    simp only [buildVariants]
    exact .pure
  | (name, v) :: vs, s => by
    simp only [buildVariants]
    exact .bind ((variant_safe c name v s).mono fun h => by simp [variantsNamed, h]) fun f' =>
      .bind ((variants_safe c vs s).mono fun h => by simp [variantsNamed, h]) fun fs' => .pure

theorem variant_safe (c : BuildCtx R) (name : String) : ∀ (v : SVariant) (s : Scope), Safe c v.named (v.build c name s)
  | .mk intro value ds, s => by
    simp only [SVariant.build]
    exact .bind (format_safe c _ value _) fun v => .lift_bind (noRedef_dataset _ _ _ _) fun ds' => .pure

theorem items_safe (c : BuildCtx R) (subject : Option Nat) : ∀ (is : List SItem) (s : Scope),
    Safe c (itemsNamed is) (buildItems c subject is s)
  | [], s => by
    simp only [buildItems]
    exact .pure
  | i :: is, s => by
    simp only [buildItems]
    exact .bind ((item_safe c subject i s).mono fun h => by simp [itemsNamed, h]) fun f' =>
      .bind ((items_safe c subject is s).mono fun h => by simp [itemsNamed, h]) fun fs' => .pure

theorem item_safe (c : BuildCtx R) (subject : Option Nat) : ∀ (i : SItem) (s : Scope), Safe c i.named (i.build c subject s)
  | .mk intro value ds property, s => by
    simp only [SItem.build]
    exact .lift_bind (noRedef_propDataset _ _ _ _ _ _) fun ds' => .bind (format_safe c _ value _) fun v => .pure

theorem node_safe (c : BuildCtx R) : ∀ (n : SNode) (s : Scope), Safe c n.named (n.build c s)
  | .node head rest intro value ds, s => by
    simp only [SNode.build]
    exact .bind (format_safe c _ value _) fun v => .lift_bind (noRedef_nodeDataset _ _ _ _ _ _) fun ds' => .pure
  | .layout r, s => by
    simp only [SNode.build]
    exact .bind (ref_safe c r s) fun r' => .pure
end

theorem build_safe (c : BuildCtx R) (l : SLayout) (s : Scope) : Safe c l.named (l.build c s) := by
  refine (define_safe (body_safe c l _)).mono fun h => ?_
  cases l <;> simpa [SLayout.layoutId, SLayout.named] using h

end Verif
