import Mathlib.Data.List.Induction
import Verif.RustModules
import Verif.Props.RustAll

/-!
# C86: modules used by generated types
-/

set_option linter.unusedSectionVars false
set_option linter.unusedSimpArgs false

namespace Verif.Props

open Verif.Rust (GenCtx Generated GenError UseTree UseAttr UseItem ModItem UseError TldrError includeBuild layoutIdent layoutRef
  presetType useItems usePrefix useTreeIdent useModule tldrModule modulesOf)

variable {R : Type} [DecidableEq R]

/-- The name that a `use` item introduces: `use a::name`, `use a::b as name`. -/
inductive Introduces : UseTree → String → Prop
  | name (n : String) : Introduces (.name n) n
  | rename (i n : String) : Introduces (.rename i n) n
  | path (i : String) {t : UseTree} {n : String} : Introduces t n → Introduces (.path i t) n

/-- The items of the module are `use` items; those with attributes `#[tldr("…")]` declare a module for a prefix, which is that of
their last attribute. -/
inductive Declares : List ModItem → List (String × String) → Prop
  | nil : Declares [] []
  | plain (t : UseTree) {items decls} : Declares items decls → Declares (.use ⟨[], t⟩ :: items) decls
  | module (before : List String) (pre m : String) {t : UseTree} {items decls} : Introduces t m → Declares items decls →
      Declares (.use ⟨(before ++ [pre]).map fun s => .list (some s), t⟩ :: items) ((pre, m) :: decls)

/-- The module declared for the IRI: that of the longest prefix of the IRI, and the last one declared for this prefix. -/
def ModuleOf (decls : List (String × String)) (iri m : String) : Prop :=
  ∃ before after pre, decls = before ++ (pre, m) :: after ∧ (∀ d ∈ after, d.1 ≠ pre) ∧ pre.toList <+: iri.toList ∧
    ∀ d ∈ decls, d.1.toList <+: iri.toList → d.1.length ≤ pre.length

theorem useTreeIdent_eq {t : UseTree} {m : String} : useTreeIdent t = some m ↔ Introduces t m := by
  constructor
  · intro h
    revert h
    fun_induction useTreeIdent t with
    | case1 i => intro h; injection h with h; subst h; exact .name _
    | case2 i j => intro h; injection h with h; subst h; exact .rename _ _
    | case3 i t ih => exact fun h => .path _ (ih h)
    | case4 => intro h; exact nomatch h
  · intro h
    induction h with
    | name => rfl
    | rename => rfl
    | path i _ ih => simpa [useTreeIdent] using ih

theorem usePrefix_eq {as : List UseAttr} {p q : Option String} : usePrefix as p = .ok q ↔
    (as = [] ∧ q = p) ∨ ∃ before pre, as = (before ++ [pre]).map (fun s => .list (some s)) ∧ q = some pre := by
  induction as generalizing p with
  | nil =>
    simp only [usePrefix, Out.ok.injEq, true_and]
    constructor
    · intro h; exact .inl h.symm
    · rintro (h | ⟨b, pre, h, -⟩)
      · exact h.symm
      · simp at h
  | cons a as ih =>
    cases a with
    | list c =>
      cases c with
      | none =>
        simp only [usePrefix, reduceCtorEq, false_and, false_or, false_iff, not_exists, not_and]
        intro b pre h
        cases b <;> simp at h
      | some s =>
        simp only [usePrefix, ih, reduceCtorEq, false_and, false_or]
        constructor
        · rintro (⟨rfl, rfl⟩ | ⟨b, pre, rfl, rfl⟩)
          · exact ⟨[], s, rfl, rfl⟩
          · exact ⟨s :: b, pre, rfl, rfl⟩
        · rintro ⟨b, pre, h, rfl⟩
          cases b with
          | nil =>
            simp only [List.nil_append, List.map_cons, List.map_nil, List.cons.injEq, UseAttr.list.injEq, Option.some.injEq] at h
            exact .inl ⟨h.2, by rw [h.1]⟩
          | cons x b =>
            simp only [List.cons_append, List.map_cons, List.cons.injEq] at h
            exact .inr ⟨b, pre, h.2, rfl⟩
    | bare =>
      simp only [usePrefix, reduceCtorEq, false_and, false_or, false_iff, not_exists, not_and]
      intro b pre h
      cases b <;> simp at h
    | other =>
      simp only [usePrefix, reduceCtorEq, false_and, false_or, false_iff, not_exists, not_and]
      intro b pre h
      cases b <;> simp at h

/-- **C86.** The macro accepts exactly the modules whose items are `use` items, with no other attribute than `#[tldr("…")]`, and a
name if they have one; what they declare are the modules of the generator. -/
theorem C86_accepts (items : List ModItem) (g g' : GenCtx R) :
    useItems items g = .ok g' ↔ ∃ decls, Declares items decls ∧ g' = { g with externModules := modulesOf decls g.externModules } := by
  induction items generalizing g with
  | nil =>
    simp only [useItems, Out.ok.injEq]
    constructor
    · rintro rfl; exact ⟨[], .nil, rfl⟩
    · rintro ⟨decls, h, rfl⟩; cases h; rfl
  | cons item items ih =>
    cases item with
    | other =>
      simp only [useItems, reduceCtorEq, false_iff, not_exists, not_and]
      intro decls h
      cases h
    | use u =>
      obtain ⟨attrs, t⟩ := u
      simp only [useItems, Out.bind_eq_ok]
      constructor
      · rintro ⟨p, hp, h⟩
        rcases usePrefix_eq.1 hp with ⟨rfl, rfl⟩ | ⟨before, pre, rfl, rfl⟩
        · obtain ⟨decls, hd, rfl⟩ := (ih g).1 h
          exact ⟨decls, .plain t hd, rfl⟩
        · cases hm : useTreeIdent t with
          | none => simp [hm] at h
          | some m =>
            simp only [hm] at h
            obtain ⟨decls, hd, rfl⟩ := (ih _).1 h
            exact ⟨_, .module before pre m (useTreeIdent_eq.1 hm) hd, rfl⟩
      · rintro ⟨decls, hd, rfl⟩
        cases hd with
        | plain _ hd => exact ⟨none, rfl, (ih g).2 ⟨_, hd, rfl⟩⟩
        | module before pre m hm hd =>
          refine ⟨some pre, usePrefix_eq.2 (.inr ⟨before, pre, rfl, rfl⟩), ?_⟩
          simp only [useTreeIdent_eq.2 hm]
          exact (ih _).2 ⟨_, hd, rfl⟩

/-- **C86.** In the types generated, a layout is named in the module declared for the longest prefix of its IRI, whatever the order
of the declarations. Without such a declaration it is named in the module itself. -/
theorem C86_longest (items : List ModItem) (decls : List (String × String)) (hd : Declares items decls) (g : GenCtx R)
    (hg : g.externModules = []) : ∃ g', useItems items g = .ok g' ∧ ∀ r i, g.irisOf r = [i] → presetType i = none →
      (∀ m, ModuleOf decls i m → layoutRef g' r = (layoutIdent g r).bind fun id => .ok (.path [m] id [])) ∧
      ((∀ d ∈ decls, ¬ d.1.toList <+: i.toList) → layoutRef g' r = (layoutIdent g r).bind fun id => .ok (.path [] id [])) := by
  refine ⟨_, (C86_accepts items g _).2 ⟨decls, hd, rfl⟩, fun r i hi hp => ?_⟩
  rw [hg]
  constructor
  · rintro m ⟨before, after, pre, rfl, hlast, hpre, hlong⟩
    have hlook := Rust.modulesOf_lookup before after pre m [] hlast
    have hpw := Rust.modulesOf_pairwise (before ++ (pre, m) :: after) [] .nil
    have hmem := Rust.modulesOf_mem (before ++ (pre, m) :: after) []
    simp only [layoutRef, hi, Rust.layoutRefLoop, hp]
    generalize modulesOf (before ++ (pre, m) :: after) [] = ms at *
    have hin : (pre, [m]) ∈ ms := by
      obtain ⟨l₁, l₂, rfl, _⟩ := List.lookup_eq_some_iff.1 hlook
      simp
    obtain ⟨as, bs, rfl⟩ := List.append_of_mem hin
    rw [Rust.foldl_last as bs (pre, [m]) none (Rust.startsWith_iff.2 hpre)]
    · rfl
    · intro b hb
      rw [Bool.eq_false_iff]
      intro hs
      rw [Rust.startsWith_iff] at hs
      obtain ⟨h1, h2⟩ := (List.pairwise_cons.1 (List.pairwise_append.1 hpw).2.1).1 b hb
      rcases hmem b (by simp [hb]) with h | ⟨d, hd', rfl⟩
      · exact nomatch h
      · have := hlong d hd' hs
        have hbp : d.1.toList <+: pre.toList := List.prefix_of_prefix_length_le hs hpre (by rw [String.length_toList, String.length_toList]; exact this)
        exact h2 (strLe_totalOrder.antisymm _ _ h1 (Rust.strLe_of_prefix hbp))
  · intro hno
    have hmem := Rust.modulesOf_mem decls []
    simp only [layoutRef, hi, Rust.layoutRefLoop, hp]
    rw [Rust.foldl_none]
    · rfl
    · intro e he
      rw [Bool.eq_false_iff]
      intro hs
      rcases hmem e he with h | ⟨d, hd', rfl⟩
      · exact nomatch h
      · exact hno d hd' (Rust.startsWith_iff.1 hs)

/-- One of the two cases always holds, and the module is unique. -/
theorem C86_decided (decls : List (String × String)) (i : String) :
    ((∃ m, ModuleOf decls i m) ∨ ∀ d ∈ decls, ¬ d.1.toList <+: i.toList) ∧
    ∀ m m', ModuleOf decls i m → ModuleOf decls i m' → m = m' := by
  constructor
  · induction decls using List.reverseRecOn with
    | nil => exact .inr fun _ h => nomatch h
    | append_singleton decls d ih =>
      by_cases hd : d.1.toList <+: i.toList
      · rcases ih with ⟨m, before, after, pre, rfl, hl, hp, hlong⟩ | hno
        · by_cases hlen : pre.length ≤ d.1.length
          · refine .inl ⟨d.2, before ++ (pre, m) :: after, [], d.1, rfl, (fun _ h => nomatch h), hd, fun e he hep => ?_⟩
            rcases List.mem_append.1 he with he | he
            · exact (hlong e he hep).trans hlen
            · rw [List.mem_singleton.1 he]
          · refine .inl ⟨m, before, after ++ [d], pre, by simp, fun e he => ?_, hp, fun e he hep => ?_⟩
            · rcases List.mem_append.1 he with he | he
              · exact hl e he
              · rw [List.mem_singleton.1 he]
                rintro h
                exact hlen (by rw [h])
            · rcases List.mem_append.1 he with he | he
              · exact hlong e he hep
              · rw [List.mem_singleton.1 he]
                omega
        · refine .inl ⟨d.2, decls, [], d.1, rfl, (fun _ h => nomatch h), hd, fun e he hep => ?_⟩
          rcases List.mem_append.1 he with he | he
          · exact absurd hep (hno e he)
          · rw [List.mem_singleton.1 he]
      · rcases ih with ⟨m, before, after, pre, rfl, hl, hp, hlong⟩ | hno
        · refine .inl ⟨m, before, after ++ [d], pre, by simp, fun e he => ?_, hp, fun e he hep => ?_⟩
          · rcases List.mem_append.1 he with he | he
            · exact hl e he
            · rw [List.mem_singleton.1 he]
              rintro h
              exact hd (by rw [h]; exact hp)
          · rcases List.mem_append.1 he with he | he
            · exact hlong e he hep
            · rw [List.mem_singleton.1 he] at hep
              exact absurd hep hd
        · refine .inr fun e he => ?_
          rcases List.mem_append.1 he with he | he
          · exact hno e he
          · rw [List.mem_singleton.1 he]; exact hd
  · rintro m m' ⟨b, a, p, hdec, hl, hp, hlong⟩ ⟨b', a', p', hdec', hl', hp', hlong'⟩
    have h1 := hlong (p', m') (by rw [hdec']; simp) hp'
    have h2 := hlong' (p, m) (by rw [hdec]; simp) hp
    have hpp : p = p' := by
      have h3 := List.prefix_of_prefix_length_le hp hp' (by rw [String.length_toList, String.length_toList]; exact h2)
      exact String.ext (h3.eq_of_length_le (by rw [String.length_toList, String.length_toList]; exact h1))
    subst hpp
    have e1 := Rust.modulesOf_lookup b a p m [] hl
    have e2 := Rust.modulesOf_lookup b' a' p m' [] hl'
    rw [← hdec] at e1
    rw [← hdec', e1] at e2
    simpa using e2

theorem declares_perm {items items' : List ModItem} (hp : items'.Perm items) : ∀ {decls}, Declares items decls →
    ∃ decls', Declares items' decls' ∧ decls'.Perm decls := by
  induction hp with
  | nil => exact fun h => ⟨_, h, .refl _⟩
  | cons x _ ih =>
    intro decls h
    cases h with
    | plain t h => obtain ⟨d, h1, h2⟩ := ih h; exact ⟨d, .plain t h1, h2⟩
    | module b pre m hm h => obtain ⟨d, h1, h2⟩ := ih h; exact ⟨_, .module b pre m hm h1, h2.cons _⟩
  | swap x y l =>
    intro decls h
    cases h with
    | plain t h =>
      cases h with
      | plain t' h => exact ⟨_, .plain t' (.plain t h), .refl _⟩
      | module b pre m hm h => exact ⟨_, .module b pre m hm (.plain t h), .refl _⟩
    | module b pre m hm h =>
      cases h with
      | plain t' h => exact ⟨_, .plain t' (.module b pre m hm h), .refl _⟩
      | module b' pre' m' hm' h => exact ⟨_, .module b' pre' m' hm' (.module b pre m hm h), .swap _ _ _⟩
  | trans _ _ ih1 ih2 =>
    intro decls h
    obtain ⟨d, h1, h2⟩ := ih2 h
    obtain ⟨d', h3, h4⟩ := ih1 h1
    exact ⟨d', h3, h4.trans h2⟩

/-- **C86.** If the prefixes are distinct, the order of the items does not matter. -/
theorem C86_order (env : LoadEnv R) (g : GenCtx R) (files : List SourceFile) (items items' : List ModItem) (hp : items'.Perm items)
    (decls : List (String × String)) (hd : Declares items decls) (hn : (decls.map Prod.fst).Nodup) :
    tldrModule env g files (some items') = tldrModule env g files (some items) := by
  obtain ⟨decls', hd', hpd⟩ := declares_perm hp hd
  have hm : modulesOf decls' [] = modulesOf decls [] := by
    have key : ∀ ds, modulesOf ds [] = bmapCollect strLe (ds.map fun d => (d.1, [d.2])) := by
      intro ds
      simp [modulesOf, bmapCollect, List.foldl_map]
    rw [key, key]
    exact bmapCollect_perm strLe_totalOrder (hpd.map _) (by simpa [List.map_map, Function.comp_def] using (hpd.map Prod.fst).nodup_iff.2 hn)
  have h1 := (C86_accepts items { g with externModules := [] } _).2 ⟨decls, hd, rfl⟩
  have h2 := (C86_accepts items' { g with externModules := [] } _).2 ⟨decls', hd', rfl⟩
  simp only [tldrModule]
  rw [h1, h2]
  simp only [hm]

/-- **C86.** What the macro generates: the types of the layouts of the files, as the generator gives them with these modules. -/
theorem C86_module (env : LoadEnv R) (g : GenCtx R) (files : List SourceFile) (items : List ModItem) (out : List Generated) :
    tldrModule env g files (some items) = .ok out ↔
      ∃ layouts decls, includeBuild env files = .ok layouts ∧ Declares items decls ∧
        List.Forall₂ (fun r x => Rust.generate { g with externModules := modulesOf decls [] } layouts.registry r = .ok x)
          layouts.keys out := by
  simp only [tldrModule, Out.bind_eq_ok, Out.mapErr_eq_ok, Rust.generateLayouts, Out.mapM'_eq_ok, LayoutMap.keys,
    List.forall₂_map_left_iff]
  constructor
  · rintro ⟨layouts, hl, g', hg', h⟩
    obtain ⟨decls, hd, rfl⟩ := (C86_accepts _ _ _).1 hg'
    exact ⟨layouts, decls, hl, hd, h⟩
  · rintro ⟨layouts, decls, hl, hd, h⟩
    exact ⟨layouts, hl, _, (C86_accepts _ _ _).2 ⟨decls, hd, rfl⟩, h⟩

namespace RmExample

open Verif.RaExample

/-- `use` items with prefixes, one of which is longer than another. -/
def uses : List ModItem := [
  .use ⟨[.list (some "ex:#full")], .path "crate" (.rename "full" "f")⟩,
  .use ⟨[], .path "std" .glob⟩,
  .use ⟨[.list (some "ex:a"), .list (some "ex:")], .name "all"⟩]

theorem declares : Declares uses [("ex:#full", "f"), ("ex:", "all")] :=
  .module [] "ex:#full" "f" (.path _ (.rename _ _)) (.plain _ (.module ["ex:a"] "ex:" "all" (.name _) .nil))

theorem module_full : ModuleOf [("ex:#full", "f"), ("ex:", "all")] "ex:#full_name" "f" :=
  ⟨[], [("ex:", "all")], "ex:#full", rfl, by decide +kernel, by decide +kernel, by decide +kernel⟩

theorem module_person : ModuleOf [("ex:#full", "f"), ("ex:", "all")] "ex:#person" "all" :=
  ⟨[("ex:#full", "f")], [], "ex:", rfl, by decide +kernel, by decide +kernel, by decide +kernel⟩

/-- The hypotheses of `C86_longest`. -/
example : ∃ g', useItems uses gen = .ok g' ∧ layoutRef g' "ex:#full_name" = .ok (.path ["f"] "FullName" []) ∧
    layoutRef g' "ex:#person" = .ok (.path ["all"] "Person" []) := by
  obtain ⟨g', h, hr⟩ := C86_longest uses _ declares gen rfl
  refine ⟨g', h, ?_, ?_⟩
  · rw [(hr "ex:#full_name" "ex:#full_name" (by rfl) (by decide +kernel)).1 "f" module_full]
    rfl
  · rw [(hr "ex:#person" "ex:#person" (by rfl) (by decide +kernel)).1 "all" module_person]
    rfl

/-- What is not accepted: another item, another attribute, `use a::*` or `use a::{b, c}` with a prefix. -/
example : (match useItems [.other] gen, useItems [.use ⟨[.other], .name "a"⟩] gen, useItems [.use ⟨[.list (some "ex:")], .glob⟩] gen,
      useItems [.use ⟨[.list (some "ex:")], .group [.name "a"]⟩] gen, useItems [.use ⟨[.bare], .name "a"⟩] gen,
      useItems [.use ⟨[.list none], .name "a"⟩] gen with
    | .err a, .err b, .err c, .err d, .err e, .err f => [a, b, c, d, e, f]
    | _, _, _, _, _, _ => []) =
    [.unsupportedItem, .unsupportedAttribute, .invalidModulePath, .invalidModulePath, .invalidAttribute, .notAString] := by
  decide +kernel

end RmExample

namespace Witness

open Verif.RaExample

/-- A layout of the files whose IRI has a declared prefix: its type is generated, but the other types do not use it. They name a type
of the module declared. -/
theorem C86_local_layout : ∃ out g', tldrModule env gen [person, text "ex:#full_name"]
      (some [.use ⟨[.list (some "ex:")], .name "all"⟩]) = .ok out ∧ out.map Generated.ident = ["FullName", "Person"] ∧
    useItems [.use ⟨[.list (some "ex:")], .name "all"⟩] gen = .ok g' ∧
    layoutRef g' "ex:#full_name" = .ok (.path ["all"] "FullName" []) :=
  ⟨_, _, rfl, by decide +kernel, rfl, rfl⟩

/-- `mod name;`, without content, is replaced by an empty module: the layouts are not generated. -/
theorem C86_no_content (env : LoadEnv R) (g : GenCtx R) (files : List SourceFile) (layouts : LayoutMap R)
    (h : includeBuild env files = .ok layouts) : tldrModule env g files none = .ok [] := by
  simp [tldrModule, h, Out.mapErr]

end Witness

end Verif.Props
