import Verif.CompactSpec
import Verif.SyntaxParseMain
import Verif.JsonLemmas
import Verif.Prelude

/-!
# Trees and definitions read from JSON documents

Lemmas for the round trip of JSON documents through the command line tool.
-/

set_option linter.unusedSectionVars false
set_option linter.unusedSimpArgs false

namespace Verif

/-! ## Definitions -/

theorem FieldEntries.doc {lib : ParseLib} {es : JsonObject} {fs : List (Value × SField)} (h : FieldEntries lib es fs) :
    ∀ f ∈ fs, ∃ j, FieldDoc lib j f.2 := by
  induction fs generalizing es with
  | nil => intro f hf; cases hf
  | cons x fs ih =>
    cases h with
    | cons h hs =>
      intro f hf
      rcases List.mem_cons.1 hf with rfl | hf
      · exact ⟨_, h⟩
      · exact ih hs f hf

theorem VariantEntries.doc {lib : ParseLib} {es : JsonObject} {vs : List (String × SVariant)} (h : VariantEntries lib es vs) :
    ∀ v ∈ vs, ∃ j, VariantDoc lib j v.2 := by
  induction vs generalizing es with
  | nil => intro f hf; cases hf
  | cons x fs ih =>
    cases h with
    | cons h hs =>
      intro f hf
      rcases List.mem_cons.1 hf with rfl | hf
      · exact ⟨_, h⟩
      · exact ih hs f hf

theorem ItemList.doc {lib : ParseLib} {js : List Json} {is : List SItem} (h : ItemList lib js is) : ∀ i ∈ is, ∃ j, ItemDoc lib j i := by
  induction is generalizing js with
  | nil => intro f hf; cases hf
  | cons x fs ih =>
    cases h with
    | cons h hs =>
      intro f hf
      rcases List.mem_cons.1 hf with rfl | hf
      · exact ⟨_, h⟩
      · exact ih hs f hf

theorem bmapInsert_mem' {κ α : Type _} [DecidableEq κ] {le : κ → κ → Bool} (m : List (κ × α)) (k : κ) (v : α) :
    ∀ e ∈ bmapInsert le k v m, e = (k, v) ∨ e ∈ m := by
  induction m with
  | nil => intro e he; simpa [bmapInsert] using he
  | cons x m ih =>
    obtain ⟨k', v'⟩ := x
    intro e he
    simp only [bmapInsert] at he
    split at he
    · rcases List.mem_cons.1 he with rfl | he
      · exact .inl rfl
      · exact .inr (.tail _ he)
    · split at he
      · rcases List.mem_cons.1 he with rfl | he
        · exact .inl rfl
        · exact .inr he
      · rcases List.mem_cons.1 he with rfl | he
        · exact .inr (.head _)
        · exact (ih e he).imp id (.tail _)

theorem bmapCollect_mem' {κ α : Type _} [DecidableEq κ] {le : κ → κ → Bool} (l : List (κ × α)) : ∀ e ∈ bmapCollect le l, e ∈ l := by
  have : ∀ (l acc : List (κ × α)), ∀ e ∈ l.foldl (fun m e => bmapInsert le e.1 e.2 m) acc, e ∈ acc ∨ e ∈ l := by
    intro l
    induction l with
    | nil => intro acc e he; exact .inl he
    | cons x l ih =>
      intro acc e he
      rcases ih _ e he with h | h
      · rcases bmapInsert_mem' _ _ _ e h with rfl | h
        · exact .inr (.head _)
        · exact .inl h
      · exact .inr (.tail _ h)
  intro e he
  rcases this l [] e he with h | h
  · cases h
  · exact h

theorem RefDoc.nested {lib : ParseLib} {j : Json} {l : SLayout} (h : RefDoc lib j (.layout l)) : ∃ o, LayoutObj lib o l := by
  cases h with
  | layout h => exact ⟨_, h⟩

theorem FormatDoc.nested {lib : ParseLib} {dflt : String} {j : Json} {f : SFormat} {l : SLayout} (h : FormatDoc lib dflt j f)
    (hl : f.ref = .layout l) : ∃ o, LayoutObj lib o l := by
  cases h with
  | ref h => cases hl
  | layout h => cases hl; exact ⟨_, h⟩
  | format hm hj hr hi hg => cases hl; exact hr.nested

/-- The definitions nested in a definition read from a document were read too. -/
theorem LayoutObj.nested {lib : ParseLib} {o : JsonObject} {l l' : SLayout} (h : LayoutObj lib o l) (hl : .layout l' ∈ l.refs) :
    ∃ o', LayoutObj lib o' l' := by
  cases h with
  | unit | boolean | number | byteString | textString | id | union | intersection => cases hl
  | record hk hf =>
    simp only [SLayout.refs, List.mem_singleton, List.mem_map] at hl
    obtain ⟨f, hf', he⟩ := hl
    generalize o.lookup _ = j at hf
    cases hf with
    | absent => cases hf'
    | present hf =>
      obtain ⟨j, hj⟩ := hf.doc f (bmapCollect_mem' _ f hf')
      obtain ⟨k, f⟩ := f
      cases hj with
      | mk hm hi hj hv => exact hv.nested he
  | sum hk hf =>
    simp only [SLayout.refs, List.mem_singleton, List.mem_map] at hl
    obtain ⟨f, hf', he⟩ := hl
    generalize o.lookup _ = j at hf
    cases hf with
    | absent => cases hf'
    | present hf =>
      obtain ⟨j, hj⟩ := hf.doc f (bmapCollect_mem' _ f hf')
      obtain ⟨k, f⟩ := f
      cases hj with
      | mk hm hi hj hv => exact hv.nested he
  | list hk hj hn hh ht =>
    simp only [SLayout.refs, List.mem_singleton, List.mem_map] at hl
    cases hn with
    | ref h => cases hl
    | layout h => cases hl; exact ⟨_, h⟩
    | node hm hh hr hi hj hv => exact hv.nested hl.symm
  | set hk hj hi =>
    simp only [SLayout.refs, List.mem_singleton, List.mem_map] at hl
    cases hi with
    | mk hm hi hj hv => exact hv.nested hl.symm
  | tuple hk hi =>
    simp only [SLayout.refs, List.mem_singleton, List.mem_map] at hl
    obtain ⟨i, hi', he⟩ := hl
    generalize o.lookup _ = j at hi
    cases hi with
    | absent => cases hi'
    | present hi =>
      obtain ⟨j, hj⟩ := hi.doc i hi'
      cases hj with
      | mk hm hi hj hv => exact hv.nested he

/-- The definitions nested in a definition read from a document, at any depth, were read too. -/
theorem parsed_sub {lib : ParseLib} {ilib : IriLib} {env env' : LexEnv} {j : Json} {l l' : SLayout} (h : parseLayout lib j = .ok l)
    (hs : SubDef ilib env l env' l') : (∃ b, l' = .bool b) ∨ ∃ o, LayoutObj lib o l' := by
  induction hs with
  | refl =>
    cases parseLayout_ok.1 h with
    | bool b => exact .inl ⟨b, rfl⟩
    | object h => exact .inr ⟨_, h⟩
  | nested _ h1 _ h3 ih =>
    rcases ih with ⟨b, rfl⟩ | ⟨o, ho⟩
    · cases h1
    · exact .inr (ho.nested h3)

theorem sortedKeys_collect {α : Type} (l : List (Value × α)) : SortedKeys (bmapCollect Value.le l) := by
  have := bmapCollect_sorted l
  unfold SortedKeys
  rw [List.pairwise_map]
  exact this

/-- The fields of the records of a definition read from a document are sorted. -/
theorem parsed_sorted {lib : ParseLib} {ilib : IriLib} {env env' : LexEnv} {j : Json} {l l' : SLayout} (h : parseLayout lib j = .ok l)
    (hs : SubDef ilib env l env' l') : l'.SortedFields := by
  rcases parsed_sub h hs with ⟨b, rfl⟩ | ⟨o, ho⟩
  · trivial
  · cases ho <;> try trivial
    case record hk hf =>
      generalize o.lookup _ = j at hf
      cases hf with
      | absent => show SortedKeys _; unfold SortedKeys; exact .nil
      | present hf => exact sortedKeys_collect _

/-! ## Trees -/

theorem parseXsdDecimal_finite {s : List Char} {q : Rat} (h : Number.parseXsdDecimal s = some q) : FiniteDecimal q := by
  simp only [Number.parseXsdDecimal] at h
  split at h
  · cases h
    split
    · exact ⟨-(Nat.ofDigitChars 10 _ 0 : Nat), _, by push_cast; rw [neg_div]⟩
    · exact ⟨(Nat.ofDigitChars 10 _ 0 : Nat), _, by push_cast; rfl⟩
  · cases h

mutual
theorem toValue_compatible : (j : Json) → (v : Value) → j.toValue = .ok v → v.JsonCompatible FiniteDecimal
  | .null, v, h => by simp only [Json.toValue, Out.ok.injEq] at h; subst h; exact .unit
  | .boolean b, v, h => by simp only [Json.toValue, Out.ok.injEq] at h; subst h; exact .boolean _
  | .number s, v, h => by
    simp only [Json.toValue, Out.bind_eq_ok, Out.ok.injEq] at h
    obtain ⟨n, hn, rfl⟩ := h
    refine .number _ ?_
    unfold Number.ofJson at hn
    cases hp : Number.parseXsdDecimal s with
    | none => rw [hp] at hn; cases hn
    | some q =>
      rw [hp] at hn
      cases hn
      exact parseXsdDecimal_finite hp
  | .string s, v, h => by simp only [Json.toValue, Out.ok.injEq] at h; subst h; exact .textString _
  | .array l, v, h => by
    simp only [Json.toValue, Out.bind_eq_ok, Out.ok.injEq] at h
    obtain ⟨vs, h1, rfl⟩ := h
    exact .list _ (toValues_compatible l vs h1)
  | .object m, v, h => by
    simp only [Json.toValue, Out.bind_eq_ok, Out.ok.injEq] at h
    obtain ⟨vs, h1, rfl⟩ := h
    have := toEntries_compatible m vs h1
    exact .map _ (fun e he => (this e (bmapCollect_mem _ e he)).1) (fun e he => (this e (bmapCollect_mem _ e he)).2)

theorem toValues_compatible : (l : List Json) → (vs : List Value) → Json.toValues l = .ok vs →
    ∀ v ∈ vs, v.JsonCompatible FiniteDecimal
  | [], vs, h => by simp only [Json.toValues, Out.ok.injEq] at h; subst h; simp
  | j :: l, vs, h => by
    simp only [Json.toValues, Out.bind_eq_ok, Out.ok.injEq] at h
    obtain ⟨v, h1, vs', h2, rfl⟩ := h
    rw [List.forall_mem_cons]
    exact ⟨toValue_compatible j v h1, toValues_compatible l vs' h2⟩

theorem toEntries_compatible : (m : List (String × Json)) → (vs : List (Value × Value)) → Json.toEntries m = .ok vs →
    ∀ e ∈ vs, (∃ s, e.1 = .literal (.textString s)) ∧ e.2.JsonCompatible FiniteDecimal
  | [], vs, h => by simp only [Json.toEntries, Out.ok.injEq] at h; subst h; simp
  | (k, j) :: m, vs, h => by
    simp only [Json.toEntries, Out.bind_eq_ok, Out.ok.injEq] at h
    obtain ⟨v, h1, vs', h2, rfl⟩ := h
    rw [List.forall_mem_cons]
    exact ⟨⟨⟨k, rfl⟩, toValue_compatible j v h1⟩, toEntries_compatible m vs' h2⟩
end

theorem Value.JsonCompatible.and {P Q : Rat → Prop} {v : Value} (h : v.JsonCompatible P) (h' : v.AllNumbers Q) :
    v.JsonCompatible fun n => P n ∧ Q n := by
  induction h with
  | unit => exact .unit
  | boolean b => exact .boolean b
  | number n h => cases h' with | number _ h' => exact .number n ⟨h, h'⟩
  | textString s => exact .textString s
  | list l _ ih => cases h' with | list _ h' => exact .list l fun v hv => ih v hv (h' v hv)
  | map m hk _ ih => cases h' with | map _ _ h' => exact .map m hk fun e he => ih e he (h' e he)

theorem zip_mem_right {α β : Type _} {l : List α} {l' : List β} (h : l.length = l'.length) {b : β} (hb : b ∈ l') :
    ∃ a, (a, b) ∈ l.zip l' := by
  induction l' generalizing l with
  | nil => cases hb
  | cons b' l' ih =>
    cases l with
    | nil => cases h
    | cons a l =>
      rcases List.mem_cons.1 hb with rfl | hb
      · exact ⟨a, .head _⟩
      · obtain ⟨a', ha'⟩ := ih (by simpa using h) hb
        exact ⟨a', .tail _ ha'⟩

/-- The same tree up to the order of sets can be written in JSON too. -/
theorem SameTree.json {R : Type _} {reg : Registry R} {ref : R} {v w : Value} (h : SameTree reg ref v w) {P : Rat → Prop}
    (hv : v.JsonCompatible P) (hw : v.WF) : w.JsonCompatible P ∧ w.WF := by
  induction h with
  | leaf v => exact ⟨hv, hw⟩
  | product m m' _ hk hf _ ih =>
    cases hv with
    | map _ h1 h2 =>
      cases hw with
      | map _ h3 h4 h5 =>
        have find : ∀ e ∈ m', ∃ e' ∈ m, e'.1 = e.1 := fun e he =>
          List.mem_map.1 (hk ▸ List.mem_map.2 ⟨e, he, rfl⟩ : e.1 ∈ m.map Prod.fst)
        have key : ∀ e ∈ m', ∃ e' ∈ m, e'.1 = e.1 ∧ e.2.JsonCompatible P ∧ e.2.WF := by
          intro e he
          obtain ⟨e', he', hk'⟩ := find e he
          obtain ⟨k, v⟩ := e
          obtain ⟨k', v'⟩ := e'
          cases hk'
          obtain ⟨f, hf'⟩ := hf _ _ he'
          exact ⟨_, he', rfl, ih _ _ _ _ he' he hf' (h2 _ he') (h5 _ he')⟩
        refine ⟨.map _ (fun e he => ?_) (fun e he => ?_), .map _ ?_ (fun e he => ?_) (fun e he => ?_)⟩
        · obtain ⟨e', he', hk', -⟩ := key e he
          rw [← hk']
          exact h1 e' he'
        · obtain ⟨e', he', -, h, -⟩ := key e he
          exact h
        · have h3 : (m.map Prod.fst).Pairwise fun a b => Value.le a b = true ∧ a ≠ b := List.pairwise_map.2 h3
          rw [hk] at h3
          exact List.pairwise_map.1 h3
        · obtain ⟨e', he', hk', -⟩ := key e he
          rw [← hk']
          exact h4 e' he'
        · obtain ⟨e', he', -, -, h⟩ := key e he
          exact h
  | unordered vs vs' f g _ _ _ h1 _ _ ih =>
    cases hv with
    | list _ hv =>
      cases hw with
      | list _ hw =>
        exact ⟨.list _ fun v hv' => (ih v hv' (hv _ (h1 v hv')) (hw _ (h1 v hv'))).1,
          .list _ fun v hv' => (ih v hv' (hv _ (h1 v hv')) (hw _ (h1 v hv'))).2⟩
  | ordered vs vs' _ hlen _ ih =>
    cases hv with
    | list _ hv =>
      cases hw with
      | list _ hw =>
        have key : ∀ v ∈ vs', v.JsonCompatible P ∧ v.WF := by
          intro v hv'
          obtain ⟨a, ha⟩ := zip_mem_right hlen hv'
          exact ih _ ha (hv a (List.of_mem_zip ha).1) (hw a (List.of_mem_zip ha).1)
        exact ⟨.list _ fun v h => (key v h).1, .list _ fun v h => (key v h).2⟩
  | @sized ref l vs vs' _ hlen' hlen _ ih =>
    cases hv with
    | list _ hv =>
      cases hw with
      | list _ hw =>
        have key : ∀ v ∈ vs', v.JsonCompatible P ∧ v.WF := by
          intro v hv'
          obtain ⟨a, ha⟩ := zip_mem_right hlen hv'
          obtain ⟨i, hi⟩ := zip_mem_right (l := l.items) (by rw [List.length_zip, ← hlen, Nat.min_self, hlen']) ha
          exact ih (i, a, v) hi (hv a (List.of_mem_zip ha).1) (hw a (List.of_mem_zip ha).1)
        exact ⟨.list _ fun v h => (key v h).1, .list _ fun v h => (key v h).2⟩
  | sum v v' _ _ _ ih => exact ih hv hw

theorem Value.WF.sorted {v : Value} (h : v.WF) : v.Sorted := by
  induction h with
  | literal l => exact .literal l
  | list l _ ih => exact .list l ih
  | map m hs _ _ _ ih => exact .map m (by unfold SortedKeys; exact List.pairwise_map.2 hs) ih

/-! ## The prelude -/

/-- The layouts of the prelude are tree layouts. -/
theorem prelude_tree {xsd : Xsd} (reg : Registry Term) (hb : xsd.boolean = xsdBoolean)
    (hd : ∀ n ∈ ["unsignedByte", "unsignedShort", "unsignedInt", "unsignedLong", "byte", "short", "int", "long"],
      xsd.isDecimal (xsdIri n) = true) {ref : Term} {l : Layout Term} (h : preludeRegistry Term.iri ref = some l) :
    l.Tree reg xsd ∧ (∀ p, l ≠ .product p) ∧ ∀ s, l ≠ .sum s := by
  obtain ⟨e, he, rfl⟩ := Option.map_eq_some_iff.1 h
  have he := List.mem_of_find?_eq_some he
  have plain : ∀ d : Term, (plainData d).Plain := fun d => ⟨rfl, rfl, rfl⟩
  simp only [List.mem_cons, List.not_mem_nil, or_false, forall_eq_or_imp, forall_eq] at hd
  obtain ⟨h1, h2, h3, h4, h5, h6, h7, h8⟩ := hd
  simp only [preludeTable, List.mem_cons, List.not_mem_nil, or_false] at he
  rcases he with rfl | rfl | rfl | rfl | rfl | rfl | rfl | rfl | rfl | rfl | rfl | rfl
  · exact ⟨⟨rfl, by intro q hq; cases hq⟩, by simp, by simp⟩
  · exact ⟨⟨plain _, by rw [hb]; rfl⟩, by simp, by simp⟩
  · exact ⟨⟨plain _, _, rfl, h1⟩, by simp, by simp⟩
  · exact ⟨⟨plain _, _, rfl, h2⟩, by simp, by simp⟩
  · exact ⟨⟨plain _, _, rfl, h3⟩, by simp, by simp⟩
  · exact ⟨⟨plain _, _, rfl, h4⟩, by simp, by simp⟩
  · exact ⟨⟨plain _, _, rfl, h5⟩, by simp, by simp⟩
  · exact ⟨⟨plain _, _, rfl, h6⟩, by simp, by simp⟩
  · exact ⟨⟨plain _, _, rfl, h7⟩, by simp, by simp⟩
  · exact ⟨⟨plain _, _, rfl, h8⟩, by simp, by simp⟩
  · exact ⟨⟨⟨rfl, rfl, rfl⟩, _, rfl⟩, by simp, by simp⟩
  · exact ⟨⟨rfl, rfl, rfl⟩, by simp, by simp⟩

end Verif
