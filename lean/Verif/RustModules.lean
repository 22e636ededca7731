import Verif.RustAll
import Verif.SyntaxReorder

/-!
# The `use` items of a module with the attribute `tldr`

```
#[tldr("layout.json")]
mod layouts {
  #[tldr("https://example.org/people#")]
  use crate::people;
}
```
-/

set_option linter.unusedSectionVars false
set_option linter.unusedSimpArgs false

namespace Verif.Rust

variable {R : Type} [DecidableEq R]

/-- `syn::UseTree`. -/
inductive UseTree where
  | path (ident : String) (tree : UseTree)
  | name (ident : String)
  | rename (ident : String) (as : String)
  | glob
  | group (items : List UseTree)

/-- `use_tree_ident`. `generators/rust/treeldr-rs-macros/src/lib.rs` L91-98. -/
def useTreeIdent : UseTree → Option String
  | .name i => some i
  | .rename _ i => some i
  | .path _ t => useTreeIdent t
  | _ => none

/-- An attribute of a `use` item: `#[tldr(…)]`, `none` if what is inside is not one string literal; `#[tldr]` or `#[tldr = …]`;
another attribute (a documentation comment, for example). -/
inductive UseAttr where
  | list (content : Option String)
  | bare
  | other

/-- A `use` item. -/
structure UseItem where
  attrs : List UseAttr
  tree : UseTree

/-- An item of the module. -/
inductive ModItem where
  | use (u : UseItem)
  | other

/-- Why the macro aborts. `generators/rust/treeldr-rs-macros/src/lib.rs` L124-126, L130-132, L135, L149-151, L158-160. -/
inductive UseError where
  | notAString
  | invalidAttribute
  | unsupportedAttribute
  | invalidModulePath
  | unsupportedItem
  deriving DecidableEq

/-- The loop over the attributes: the prefix. `generators/rust/treeldr-rs-macros/src/lib.rs` L115-137. -/
def usePrefix : List UseAttr → Option String → Out UseError (Option String)
  | [], p => .ok p
  | .list (some s) :: as, _ => usePrefix as (some s)
  | .list none :: _, _ => .err .notAString
  | .bare :: _, _ => .err .invalidAttribute
  | .other :: _, _ => .err .unsupportedAttribute

/-- The loop over the items of the module: the options of the generator. `generators/rust/treeldr-rs-macros/src/lib.rs`
L109-162. The paths given to `use_module` have one segment. -/
def useItems : List ModItem → GenCtx R → Out UseError (GenCtx R)
  | [], g => .ok g
  | .other :: _, _ => .err .unsupportedItem
  | .use u :: is, g =>
    (usePrefix u.attrs none).bind fun p =>
      match p with
      | none => useItems is g
      | some p =>
        match useTreeIdent u.tree with
        | some m => useItems is (useModule g p [m])
        | none => .err .invalidModulePath

/-- Why the macro `tldr` aborts. -/
inductive TldrError (R : Type) where
  | load (e : IncludeError R)
  | uses (e : UseError)

/-- The macro `tldr`: what is added to the module after its `use` items. `items` is `none` for `mod name;`.
`generators/rust/treeldr-rs-macros/src/lib.rs` L100-191. The options start without modules (L108). -/
def tldrModule (env : LoadEnv R) (g : GenCtx R) (files : List SourceFile) (items : Option (List ModItem)) :
    Out (TldrError R) (List Generated) :=
  ((includeBuild env files).mapErr .load).bind fun layouts =>
    match items with
    | none => .ok []
    | some items =>
      ((useItems items { g with externModules := [] }).mapErr .uses).bind fun g =>
        (generateLayouts g layouts).mapErr fun e => .load (.generator e)

/-! ## Lemmas -/

theorem bmapInsert_pairwise {κ α : Type} [DecidableEq κ] {le : κ → κ → Bool} (ht : TotalOrder le) (k : κ) (v : α) :
    ∀ m : List (κ × α), m.Pairwise (fun a b => le a.1 b.1 = true ∧ a.1 ≠ b.1) →
      (bmapInsert le k v m).Pairwise fun a b => le a.1 b.1 = true ∧ a.1 ≠ b.1 := by
  intro m
  induction m with
  | nil => intro _; simp [bmapInsert]
  | cons e m ih =>
    intro h
    obtain ⟨h1, h2⟩ := List.pairwise_cons.1 h
    obtain ⟨k', v'⟩ := e
    simp only [bmapInsert]
    split
    next hk =>
      subst hk
      exact List.pairwise_cons.2 ⟨h1, h2⟩
    next hk =>
      split
      next hle =>
        refine List.pairwise_cons.2 ⟨fun a ha => ?_, h⟩
        rcases List.mem_cons.1 ha with rfl | ha
        · exact ⟨hle, hk⟩
        · have := h1 a ha
          refine ⟨ht.trans _ _ _ hle this.1, fun he => this.2 (ht.antisymm _ _ this.1 ?_)⟩
          rw [← show k = a.1 from he]
          exact hle
      next hle =>
        refine List.pairwise_cons.2 ⟨fun a ha => ?_, ih h2⟩
        rcases mem_bmapInsert le k v m a ha with rfl | ha
        · refine ⟨(ht.total _ _).resolve_left hle, fun he => hk he.symm⟩
        · exact h1 a ha

theorem strLe_of_prefix {a b : String} (h : a.toList <+: b.toList) : strLe a b = true := by
  obtain ⟨t, ht⟩ := h
  have key : ∀ (x t : List Char), lexLe (encList encChar x) (encList encChar (x ++ t)) = true := by
    intro x t
    induction x with
    | nil => cases t <;> simp [encList, lexLe]
    | cons c x ih => simp [encList, encChar, lexLe, ih]
  have := key a.toList t
  rw [ht] at this
  simpa [strLe, Value.le, Value.text, Value.enc, Literal.enc, encString, lexLe] using this

theorem startsWith_iff {s p : String} : startsWith s p = true ↔ p.toList <+: s.toList := by
  simp [startsWith]

/-- The modules declared, as the options hold them. -/
def modulesOf (decls : List (String × String)) (ms : List (String × List String)) : List (String × List String) :=
  decls.foldl (fun ms d => bmapInsert strLe d.1 [d.2] ms) ms

theorem modulesOf_pairwise (decls : List (String × String)) (ms : List (String × List String))
    (h : ms.Pairwise fun a b => strLe a.1 b.1 = true ∧ a.1 ≠ b.1) :
    (modulesOf decls ms).Pairwise fun a b => strLe a.1 b.1 = true ∧ a.1 ≠ b.1 := by
  induction decls generalizing ms with
  | nil => exact h
  | cons d decls ih => exact ih _ (bmapInsert_pairwise strLe_totalOrder _ _ _ h)

theorem modulesOf_mem (decls : List (String × String)) (ms : List (String × List String)) :
    ∀ e ∈ modulesOf decls ms, e ∈ ms ∨ ∃ d ∈ decls, e = (d.1, [d.2]) := by
  induction decls generalizing ms with
  | nil => exact fun e he => .inl he
  | cons d decls ih =>
    intro e he
    rcases ih _ e he with h | ⟨d', hd', rfl⟩
    · rcases mem_bmapInsert _ _ _ _ _ h with rfl | h
      · exact .inr ⟨d, by simp, rfl⟩
      · exact .inl h
    · exact .inr ⟨d', by simp [hd'], rfl⟩

theorem modulesOf_lookup_skip (decls : List (String × String)) (ms : List (String × List String)) (p : String)
    (h : ∀ d ∈ decls, d.1 ≠ p) : (modulesOf decls ms).lookup p = ms.lookup p := by
  induction decls generalizing ms with
  | nil => rfl
  | cons d decls ih =>
    have : modulesOf (d :: decls) ms = modulesOf decls (bmapInsert strLe d.1 [d.2] ms) := rfl
    rw [this, ih _ fun d' hd' => h d' (by simp [hd']), lookup_bmapInsert, if_neg (Ne.symm (h d (by simp)))]

theorem modulesOf_lookup (as bs : List (String × String)) (p m : String) (ms : List (String × List String))
    (h : ∀ d ∈ bs, d.1 ≠ p) : (modulesOf (as ++ (p, m) :: bs) ms).lookup p = some [m] := by
  have : modulesOf (as ++ (p, m) :: bs) ms = modulesOf bs (bmapInsert strLe p [m] (modulesOf as ms)) := by
    simp [modulesOf, List.foldl_append]
  rw [this, modulesOf_lookup_skip _ _ _ h, lookup_bmapInsert, if_pos rfl]

theorem foldl_none {i : String} (ms : List (String × List String)) (acc : Option (List String))
    (h : ∀ m ∈ ms, startsWith i m.1 = false) :
    ms.foldl (fun acc m => if startsWith i m.1 then some m.2 else acc) acc = acc := by
  induction ms with
  | nil => rfl
  | cons m ms ih =>
    rw [List.foldl_cons, if_neg (by rw [h m (by simp)]; simp)]
    exact ih fun m hm => h m (by simp [hm])

theorem foldl_last {i : String} (as bs : List (String × List String)) (e : String × List String) (acc : Option (List String))
    (he : startsWith i e.1 = true) (h : ∀ m ∈ bs, startsWith i m.1 = false) :
    (as ++ e :: bs).foldl (fun acc m => if startsWith i m.1 then some m.2 else acc) acc = some e.2 := by
  rw [List.foldl_append, List.foldl_cons, if_pos he, foldl_none _ _ h]

end Verif.Rust
