import Verif.SyntaxParseMain
import Verif.JsonLemmas
import Verif.HydrateSpec
import Mathlib.Data.List.Perm.Basic

/-!
# The order of the members of objects

`Json.Reordered j j'`: `j'` is `j` with the members of some of its objects in another order, at any depth; an object whose
members are reordered has no two members of the same name.
-/

set_option linter.unusedSectionVars false
set_option linter.unusedSimpArgs false

namespace Verif

mutual
/-- Equal up to the order of the members of objects. -/
inductive Json.Reordered : Json → Json → Prop
  | refl (j : Json) : Json.Reordered j j
  | array {l l' : List Json} (h : Json.ReorderedItems l l') : Json.Reordered (.array l) (.array l')
  | object {o o₁ o' : JsonObject} (hn : (o.map Prod.fst).Nodup) (h : Json.ReorderedEntries o o₁) (hp : o₁.Perm o') :
      Json.Reordered (.object o) (.object o')

/-- The items of an array. -/
inductive Json.ReorderedItems : List Json → List Json → Prop
  | nil : Json.ReorderedItems [] []
  | cons {j j' : Json} {l l' : List Json} (h : Json.Reordered j j') (hs : Json.ReorderedItems l l') :
      Json.ReorderedItems (j :: l) (j' :: l')

/-- The members of an object. -/
inductive Json.ReorderedEntries : JsonObject → JsonObject → Prop
  | nil : Json.ReorderedEntries [] []
  | cons {k : String} {j j' : Json} {o o' : JsonObject} (h : Json.Reordered j j') (hs : Json.ReorderedEntries o o') :
      Json.ReorderedEntries ((k, j) :: o) ((k, j') :: o')
end

namespace Json

theorem ReorderedEntries.keys {o o' : JsonObject} (h : ReorderedEntries o o') : o'.map Prod.fst = o.map Prod.fst := by
  induction o generalizing o' with
  | nil => cases h; rfl
  | cons e o ih => cases h with | cons h hs => simp [ih hs]

theorem ReorderedEntries.refl (o : JsonObject) : ReorderedEntries o o := by
  induction o with
  | nil => exact .nil
  | cons e o ih => exact .cons (.refl _) ih

theorem ReorderedEntries.perm {o o' o₁ : JsonObject} (h : ReorderedEntries o o') (hp : o.Perm o₁) :
    ∃ o₂, ReorderedEntries o₁ o₂ ∧ o'.Perm o₂ := by
  induction hp generalizing o' with
  | nil => cases h; exact ⟨[], .nil, .nil⟩
  | cons e _ ih =>
    cases h with
    | cons h hs => obtain ⟨o₂, h2, hp⟩ := ih hs; exact ⟨_, .cons h h2, hp.cons _⟩
  | swap a b l =>
    cases h with
    | cons h hs => cases hs with | cons h' hs => exact ⟨_, .cons h' (.cons h hs), .swap _ _ _⟩
  | trans _ _ ih1 ih2 =>
    obtain ⟨o₂, h2, hp⟩ := ih1 h
    obtain ⟨o₃, h3, hp'⟩ := ih2 h2
    exact ⟨_, h3, hp.trans hp'⟩

mutual
theorem Reordered.symm {j j' : Json} (h : Reordered j j') : Reordered j' j := by
  cases h with
  | refl => exact .refl _
  | array h => exact .array h.symm
  | object hn h hp =>
    obtain ⟨o₂, h2, hp2⟩ := h.symm.perm hp
    refine .object ?_ h2 hp2.symm
    rw [← h.keys] at hn
    exact (hp.map _).nodup_iff.1 hn

theorem ReorderedItems.symm {l l' : List Json} (h : ReorderedItems l l') : ReorderedItems l' l := by
  cases h with
  | nil => exact .nil
  | cons h hs => exact .cons h.symm hs.symm

theorem ReorderedEntries.symm {o o' : JsonObject} (h : ReorderedEntries o o') : ReorderedEntries o' o := by
  cases h with
  | nil => exact .nil
  | cons h hs => exact .cons h.symm hs.symm
end

end Json
open Json (Reordered ReorderedItems ReorderedEntries)

/-! ## Lookup -/

/-- Related, or both absent. -/
def SameOpt : Option Json → Option Json → Prop
  | none, none => True
  | some j, some j' => Reordered j j'
  | _, _ => False

theorem SameOpt.refl (j : Option Json) : SameOpt j j := by
  cases j with
  | none => trivial
  | some j => exact Json.Reordered.refl j

theorem lookup_perm {o o' : JsonObject} (hp : o.Perm o') (hn : (o.map Prod.fst).Nodup) (k : String) :
    o'.lookup k = o.lookup k := by
  induction hp with
  | nil => rfl
  | cons e _ ih => rw [List.lookup_cons, List.lookup_cons, ih (List.nodup_cons.1 hn).2]
  | swap a b l =>
    obtain ⟨a, x⟩ := a
    obtain ⟨b, y⟩ := b
    simp only [List.map_cons, List.nodup_cons, List.mem_cons, not_or] at hn
    simp only [List.lookup_cons]
    cases h1 : k == a with
    | false => cases h2 : k == b <;> rfl
    | true =>
      cases h2 : k == b with
      | false => rfl
      | true => exact absurd ((beq_iff_eq.1 h2).symm.trans (beq_iff_eq.1 h1)) hn.1.1
  | trans h1 _ ih1 ih2 => rw [ih2 ((h1.map _).nodup_iff.1 hn), ih1 hn]

theorem lookup_entries {o o' : JsonObject} (h : ReorderedEntries o o') (k : String) : SameOpt (o.lookup k) (o'.lookup k) := by
  induction o generalizing o' with
  | nil => cases h; trivial
  | cons e o ih =>
    cases h with
    | cons h hs =>
      rename_i k' j j' o'
      simp only [List.lookup_cons]
      cases k == k' with
      | true => exact h
      | false => exact ih hs

/-- What the parser of an object depends on. -/
structure SameObj (o o' : JsonObject) : Prop where
  lookup : ∀ k, SameOpt (o.lookup k) (o'.lookup k)
  members : ∀ ms, Members o ms → Members o' ms

theorem reordered_object {o : JsonObject} {j' : Json} (h : Reordered (.object o) j') : ∃ o', j' = .object o' ∧ SameObj o o' := by
  cases h with
  | refl => exact ⟨o, rfl, fun _ => .refl _, fun _ h => h⟩
  | object hn h hp =>
    rename_i o₁ o'
    refine ⟨o', rfl, fun k => ?_, fun ms hm => ⟨?_, fun e he => ?_⟩⟩
    · rw [lookup_perm hp (h.keys ▸ hn)]; exact lookup_entries h k
    · exact (hp.map _).nodup_iff.1 (h.keys ▸ hn)
    · have : e.1 ∈ o.map Prod.fst := h.keys ▸ List.mem_map.2 ⟨e, hp.mem_iff.2 he, rfl⟩
      obtain ⟨e', he', hk⟩ := List.mem_map.1 this
      exact hk ▸ hm.2 e' he'

/-- A relation that does not depend on the order of members. -/
def Stable {α : Type} (D : Json → α → Prop) : Prop := ∀ ⦃j j' a⦄, Reordered j j' → D j a → D j' a

theorem OptDoc.stable {α : Type} {D : Json → α → Prop} (hD : Stable D) {j j' : Option Json} {a : Option α} (h : SameOpt j j')
    (hd : OptDoc D j a) : OptDoc D j' a := by
  match j, j', a, h, hd with
  | none, none, none, _, _ => trivial
  | some _, some _, some _, h, hd => exact hD h hd

theorem DefaultDoc.stable {α : Type} {D : Json → α → Prop} (hD : Stable D) {d : α} {j j' : Option Json} {a : α} (h : SameOpt j j')
    (hd : DefaultDoc D d j a) : DefaultDoc D d j' a := by
  match j, j', h, hd with
  | none, none, _, hd => exact hd
  | some _, some _, h, hd => exact hD h hd

theorem SameOpt.some {j : Json} {j' : Option Json} (h : SameOpt (some j) j') : ∃ k, j' = .some k ∧ Reordered j k := by
  match j', h with
  | .some k, h => exact ⟨k, rfl, h⟩

/-- Documents that are not objects or arrays. -/
theorem reordered_atom {j j' : Json} (h : Reordered j j') (ha : ∀ l, j ≠ .array l) (ho : ∀ o, j ≠ .object o) : j' = j := by
  cases h with
  | refl => rfl
  | array => exact absurd rfl (ha _)
  | object => exact absurd rfl (ho _)

theorem reordered_string {s : String} {j' : Json} (h : Reordered (.string s) j') : j' = .string s :=
  reordered_atom h (by simp) (by simp)

theorem reordered_string_opt {s : String} {j' : Option Json} (h : SameOpt (some (.string s)) j') : j' = some (.string s) := by
  obtain ⟨k, rfl, hk⟩ := h.some
  rw [reordered_string hk]

theorem stable_string : Stable StringDoc := fun _ _ _ h hd => by subst hd; exact reordered_string h
theorem stable_bool : Stable BoolDoc := fun _ _ _ h hd => by subst hd; exact reordered_atom h (by simp) (by simp)
theorem stable_iri {lib : ParseLib} : Stable (IriDoc lib) := fun _ _ _ h hd => by
  obtain ⟨rfl, hd⟩ := hd; exact ⟨reordered_string h, hd⟩
theorem stable_regexp : Stable RegExpDoc := fun _ _ _ h hd => by
  obtain ⟨s, rfl, hd⟩ := hd; exact ⟨s, reordered_string h, hd⟩

theorem reordered_array {l : List Json} {j' : Json} (h : Reordered (.array l) j') : ∃ l', j' = .array l' ∧ ReorderedItems l l' := by
  cases h with
  | refl =>
    refine ⟨l, rfl, ?_⟩
    induction l with
    | nil => exact .nil
    | cons j l ih => exact .cons (.refl _) ih
  | array h => exact ⟨_, rfl, h⟩

theorem stable_list {α : Type} {D : Json → α → Prop} (hD : Stable D) : Stable (ListDoc D) := fun j j' a h hd => by
  obtain ⟨js, rfl, hd⟩ := hd
  obtain ⟨l', rfl, hl⟩ := reordered_array h
  refine ⟨l', rfl, ?_⟩
  clear h
  induction hd generalizing l' with
  | nil => cases hl; exact .nil
  | cons hd _ ih => cases hl with | cons h hs => exact .cons (hD h hd) (ih _ hs)

theorem reordered_not_array {j j' : Json} (h : Reordered j j') (hj : ∀ l, j ≠ .array l) : ∀ l, j' ≠ .array l := by
  cases h with
  | refl => exact hj
  | array => exact absurd rfl (hj _)
  | object => simp

theorem stable_oneOrMany {α : Type} {D : Json → α → Prop} (hD : Stable D) : Stable (OneOrManyDoc D) := fun j j' a h hd => by
  cases a with
  | one a => exact ⟨reordered_not_array h hd.1, hD h hd.2⟩
  | many l => exact stable_list hD h hd

theorem stable_pattern {lib : ParseLib} : Stable (PatternDoc lib) := fun j j' a h hd => by
  cases hd with
  | var hb hx => rw [reordered_string h]; exact .var hb hx
  | iri hb hi => rw [reordered_string h]; exact .iri hb hi
  | typed hm ht hi hv =>
    obtain ⟨o', rfl, ho⟩ := reordered_object h
    exact .typed (ho.members _ hm) (reordered_string_opt (ht ▸ ho.lookup _)) hi (reordered_string_opt (hv ▸ ho.lookup _))
  | language hm ht hi hv =>
    obtain ⟨o', rfl, ho⟩ := reordered_object h
    exact .language (ho.members _ hm) (reordered_string_opt (ht ▸ ho.lookup _)) hi (reordered_string_opt (hv ▸ ho.lookup _))

theorem stable_quad {lib : ParseLib} : Stable (QuadDoc lib) := fun j j' a h hd => by
  cases hd with
  | three h1 h2 h3 =>
    obtain ⟨l', rfl, hl⟩ := reordered_array h
    cases hl with | cons r1 hl => cases hl with | cons r2 hl => cases hl with | cons r3 hl => cases hl with | nil =>
    exact .three (stable_pattern r1 h1) (stable_pattern r2 h2) (stable_pattern r3 h3)
  | four h1 h2 h3 h4 =>
    obtain ⟨l', rfl, hl⟩ := reordered_array h
    cases hl with | cons r1 hl => cases hl with | cons r2 hl => cases hl with | cons r3 hl => cases hl with | cons r4 hl =>
    cases hl with | nil =>
    exact .four (stable_pattern r1 h1) (stable_pattern r2 h2) (stable_pattern r3 h3) (stable_pattern r4 h4)

theorem stable_dataset {lib : ParseLib} : Stable (DatasetDoc lib) := stable_list stable_quad

theorem stable_resource {lib : ParseLib} : Stable (ResourceDoc lib) := fun j j' a h hd => by
  cases hd with
  | boolean b => rw [reordered_atom h (by simp) (by simp)]; exact .boolean b
  | number hn => rw [reordered_atom h (by simp) (by simp)]; exact .number hn
  | string s => rw [reordered_string h]; exact .string s
  | typed hm ht hi hv =>
    obtain ⟨o', rfl, ho⟩ := reordered_object h
    exact .typed (ho.members _ hm) (reordered_string_opt (ht ▸ ho.lookup _)) hi (reordered_string_opt (hv ▸ ho.lookup _))

theorem stable_graph {lib : ParseLib} : Stable (GraphDoc lib) := fun j j' a h hd => by
  cases hd with
  | null => rw [reordered_atom h (by simp) (by simp)]; exact .null
  | pattern hp => exact .pattern (stable_pattern h hp)

/-! ## Maps -/

theorem TotalOrder.refl {κ : Type} {le : κ → κ → Bool} (ht : TotalOrder le) (a : κ) : le a a = true := by
  rcases ht.total a a with h | h <;> exact h

theorem bmapInsert_comm {κ α : Type} [DecidableEq κ] {le : κ → κ → Bool} (ht : TotalOrder le) (m : List (κ × α)) {k k' : κ}
    (hk : k ≠ k') (v v' : α) :
    bmapInsert le k v (bmapInsert le k' v' m) = bmapInsert le k' v' (bmapInsert le k v m) := by
  have key : ∀ {k k' : κ} (v v' : α), k ≠ k' → le k k' = true →
      bmapInsert le k v (bmapInsert le k' v' m) = bmapInsert le k' v' (bmapInsert le k v m) := by
    intro k k' v v' hk hle
    have hle' : le k' k = false := by
      cases h : le k' k with
      | false => rfl
      | true => exact absurd (ht.antisymm _ _ hle h) hk
    induction m with
    | nil => simp [bmapInsert, hk, Ne.symm hk, hle, hle']
    | cons e m ih =>
      obtain ⟨x, w⟩ := e
      by_cases h1 : k = x
      · subst h1
        simp [bmapInsert, hk, Ne.symm hk, hle, hle']
      · by_cases h2 : k' = x
        · subst h2
          simp [bmapInsert, hk, Ne.symm hk, hle, hle']
        · cases h3 : le k' x with
          | true =>
            have h4 := ht.trans _ _ _ hle h3
            simp [bmapInsert, hk, Ne.symm hk, hle, hle', h1, h2, h3, h4]
          | false =>
            cases h4 : le k x with
            | true => simp [bmapInsert, hk, Ne.symm hk, hle, hle', h1, h2, h3, h4]
            | false => simp [bmapInsert, hk, Ne.symm hk, hle, hle', h1, h2, h3, h4, ih]
  rcases ht.total k k' with h | h
  · exact key v v' hk h
  · exact (key v' v (Ne.symm hk) h).symm

theorem bmapCollect_perm {κ α : Type} [DecidableEq κ] {le : κ → κ → Bool} (ht : TotalOrder le) {l l' : List (κ × α)}
    (hp : l.Perm l') (hn : (l.map Prod.fst).Nodup) : bmapCollect le l = bmapCollect le l' := by
  unfold bmapCollect
  generalize ([] : List (κ × α)) = acc
  induction hp generalizing acc with
  | nil => rfl
  | cons e _ ih => exact ih (List.nodup_cons.1 hn).2 _
  | swap a b l =>
    simp only [List.map_cons, List.nodup_cons, List.mem_cons, not_or] at hn
    simp only [List.foldl_cons, bmapInsert_comm ht acc hn.1.1]
  | trans h1 _ ih1 ih2 => rw [ih1 hn acc, ih2 ((h1.map _).nodup_iff.1 hn) acc]

theorem forall₂_perm {α β : Type} {R : α → β → Prop} {l l' : List α} {m : List β} (h : List.Forall₂ R l m) (hp : l.Perm l') :
    ∃ m', List.Forall₂ R l' m' ∧ m.Perm m' := by
  induction hp generalizing m with
  | nil => cases h; exact ⟨[], .nil, .nil⟩
  | cons e _ ih =>
    cases h with
    | cons h hs => obtain ⟨m', h', hp⟩ := ih hs; exact ⟨_, .cons h h', hp.cons _⟩
  | swap a b l =>
    cases h with
    | cons h hs => cases hs with | cons h' hs => exact ⟨_, .cons h' (.cons h hs), .swap _ _ _⟩
  | trans _ _ ih1 ih2 =>
    obtain ⟨m₁, h1, hp1⟩ := ih1 h
    obtain ⟨m₂, h2, hp2⟩ := ih2 h1
    exact ⟨_, h2, hp1.trans hp2⟩

/-- Maps whose keys are determined by the names of members, injectively. -/
theorem stable_map {κ α : Type} [DecidableEq κ] {le : κ → κ → Bool} {K : String → κ → Prop} {D : Json → α → Prop}
    (ht : TotalOrder le) (hK : ∀ {a b k}, K a k → K b k → a = b) (hD : Stable D) : Stable (MapDoc le K D) := fun j j' a h hd => by
  obtain ⟨o, l, rfl, hl, rfl⟩ := hd
  cases h with
  | refl => exact ⟨o, l, rfl, hl, rfl⟩
  | object hn h hp =>
    rename_i o₁ o'
    have h1 : List.Forall₂ (fun e r => K e.1 r.1 ∧ D e.2 r.2) o₁ l := by
      clear hn hp
      induction hl generalizing o₁ with
      | nil => cases h; exact .nil
      | cons hd _ ih => cases h with | cons h hs => exact .cons ⟨hd.1, hD h hd.2⟩ (ih hs)
    obtain ⟨l', h2, hp'⟩ := forall₂_perm h1 hp
    refine ⟨o', l', rfl, h2, bmapCollect_perm ht hp' ?_⟩
    clear h1 h2 hp hp' h o₁ o' l'
    induction hl with
    | nil => exact List.nodup_nil
    | cons hd hs ih =>
      rename_i e r o l
      simp only [List.map_cons, List.nodup_cons] at hn ⊢
      refine ⟨fun hm => hn.1 ?_, ih hn.2⟩
      obtain ⟨r', hr', he⟩ := List.mem_map.1 hm
      obtain ⟨e', he', hk⟩ : ∃ e' ∈ o, K e'.1 r'.1 := by
        clear ih hm hn he
        induction hs with
        | nil => cases hr'
        | cons h _ ih =>
          rcases List.mem_cons.1 hr' with rfl | hr'
          · exact ⟨_, List.mem_cons_self .., h.1⟩
          · obtain ⟨e', he', hk⟩ := ih hr'; exact ⟨e', List.mem_cons_of_mem _ he', hk⟩
      rw [hK hd.1 (he ▸ hk)]
      exact List.mem_map.2 ⟨e', he', rfl⟩

theorem Value.le_totalOrder : TotalOrder Value.le where
  total a b := lexLe_total _ _
  trans a b c := lexLe_trans _ _ _
  antisymm a b h h' := by
    have := lexLe_antisymm _ _ h h'
    exact (Value.prefixFree a b [] [] (by rw [this])).1

theorem strLe_totalOrder : TotalOrder strLe where
  total a b := Value.le_totalOrder.total _ _
  trans a b c := Value.le_totalOrder.trans _ _ _
  antisymm a b h h' := by
    have := Value.le_totalOrder.antisymm _ _ h h'
    simpa [Value.text] using this

/-! ## Constants -/

theorem toEntries_ok {o : JsonObject} {m : List (Value × Value)} :
    Json.toEntries o = .ok m ↔ List.Forall₂ (fun e r => r.1 = Value.text e.1 ∧ e.2.toValue = .ok r.2) o m := by
  induction o generalizing m with
  | nil =>
    simp only [Json.toEntries, List.forall₂_nil_left_iff]
    exact ⟨fun h => by injection h with h; exact h.symm, fun h => by rw [h]⟩
  | cons e o ih =>
    obtain ⟨k, j⟩ := e
    simp only [Json.toEntries, Out.bind_eq_ok]
    constructor
    · rintro ⟨v, h1, m', h2, h3⟩
      injection h3 with h3
      subst h3
      exact .cons ⟨rfl, h1⟩ (ih.1 h2)
    · intro h
      cases h with
      | cons h hs =>
        rename_i r m'
        obtain ⟨k', v⟩ := r
        obtain ⟨rfl, hv⟩ := h
        exact ⟨v, hv, m', ih.2 hs, rfl⟩

theorem toEntries_keys {o : JsonObject} {m : List (Value × Value)} (h : Json.toEntries o = .ok m)
    (hn : (o.map Prod.fst).Nodup) : (m.map Prod.fst).Nodup := by
  have : m.map Prod.fst = (o.map Prod.fst).map Value.text := by
    have h' := toEntries_ok.1 h
    clear hn h
    induction h' with
    | nil => rfl
    | cons h' _ ih => simp [h'.1, ih]
  rw [this]
  exact hn.map fun a b h => by simpa [Value.text] using h

mutual
theorem reordered_toValue {j j' : Json} {v : Value} (h : Reordered j j') (hv : j.toValue = .ok v) : j'.toValue = .ok v := by
  cases h with
  | refl => exact hv
  | array h =>
    simp only [Json.toValue, Out.bind_eq_ok] at hv ⊢
    obtain ⟨vs, h1, h2⟩ := hv
    exact ⟨vs, reordered_toValues h h1, h2⟩
  | object hn h hp =>
    simp only [Json.toValue, Out.bind_eq_ok] at hv ⊢
    obtain ⟨m, h1, h2⟩ := hv
    have h3 := reordered_toEntries h h1
    obtain ⟨m', h4, hp'⟩ := forall₂_perm (toEntries_ok.1 h3) hp
    exact ⟨m', toEntries_ok.2 h4, by rw [← h2, bmapCollect_perm Value.le_totalOrder hp' (toEntries_keys h1 hn)]⟩

theorem reordered_toValues {l l' : List Json} {vs : List Value} (h : ReorderedItems l l') (hv : Json.toValues l = .ok vs) :
    Json.toValues l' = .ok vs := by
  cases h with
  | nil => exact hv
  | cons h hs =>
    simp only [Json.toValues, Out.bind_eq_ok] at hv ⊢
    obtain ⟨v, h1, vs', h2, h3⟩ := hv
    exact ⟨v, reordered_toValue h h1, vs', reordered_toValues hs h2, h3⟩

theorem reordered_toEntries {o o' : JsonObject} {m : List (Value × Value)} (h : ReorderedEntries o o')
    (hv : Json.toEntries o = .ok m) : Json.toEntries o' = .ok m := by
  cases h with
  | nil => exact hv
  | cons h hs =>
    simp only [Json.toEntries, Out.bind_eq_ok] at hv ⊢
    obtain ⟨v, h1, vs', h2, h3⟩ := hv
    exact ⟨v, reordered_toValue h h1, vs', reordered_toEntries hs h2, h3⟩
end

theorem stable_const : Stable ConstDoc := fun _ _ _ h hd => reordered_toValue h hd

/-! ## Layouts -/

variable {lib : ParseLib} (ht : TotalOrder lib.leIri)
include ht

theorem HeaderDoc.stable {o o' : JsonObject} {h : LayoutHeader} (ho : SameObj o o') (hd : HeaderDoc lib o h) : HeaderDoc lib o' h where
  base := hd.base.stable stable_iri (ho.lookup _)
  prefixes := hd.prefixes.stable (stable_map strLe_totalOrder (fun h h' => h.trans h'.symm) stable_iri) (ho.lookup _)
  id := hd.id.stable stable_iri (ho.lookup _)
  input := hd.input.stable (stable_oneOrMany stable_string) (ho.lookup _)
  intro := hd.intro.stable (stable_oneOrMany stable_string) (ho.lookup _)
  dataset := hd.dataset.stable stable_dataset (ho.lookup _)
  extra := hd.extra.stable (stable_map ht (fun h h' => h.1.trans h'.1.symm) stable_resource) (ho.lookup _)

theorem KindDoc.stable {o o' : JsonObject} {ty : String} {ms : List String} {h : LayoutHeader} (ho : SameObj o o')
    (hd : KindDoc lib o ty ms h) : KindDoc lib o' ty ms h where
  members := ho.members _ hd.members
  type := reordered_string_opt (hd.type ▸ ho.lookup "type")
  header := hd.header.stable ht ho

omit ht in
theorem FieldEntries.perm {es es' : JsonObject} {fs : List (Value × SField)} (h : FieldEntries lib es fs) (hp : es.Perm es') :
    ∃ fs', FieldEntries lib es' fs' ∧ fs.Perm fs' := by
  induction hp generalizing fs with
  | nil => cases h; exact ⟨[], .nil, .nil⟩
  | cons e _ ih =>
    cases h with
    | cons h hs => obtain ⟨m', h', hp⟩ := ih hs; exact ⟨_, .cons h h', hp.cons _⟩
  | swap a b l =>
    cases h with
    | cons h hs => cases hs with | cons h' hs => exact ⟨_, .cons h' (.cons h hs), .swap _ _ _⟩
  | trans _ _ ih1 ih2 =>
    obtain ⟨m₁, h1, hp1⟩ := ih1 h
    obtain ⟨m₂, h2, hp2⟩ := ih2 h1
    exact ⟨_, h2, hp1.trans hp2⟩

omit ht in
theorem VariantEntries.perm {es es' : JsonObject} {fs : List (String × SVariant)} (h : VariantEntries lib es fs)
    (hp : es.Perm es') : ∃ fs', VariantEntries lib es' fs' ∧ fs.Perm fs' := by
  induction hp generalizing fs with
  | nil => cases h; exact ⟨[], .nil, .nil⟩
  | cons e _ ih =>
    cases h with
    | cons h hs => obtain ⟨m', h', hp⟩ := ih hs; exact ⟨_, .cons h h', hp.cons _⟩
  | swap a b l =>
    cases h with
    | cons h hs => cases hs with | cons h' hs => exact ⟨_, .cons h' (.cons h hs), .swap _ _ _⟩
  | trans _ _ ih1 ih2 =>
    obtain ⟨m₁, h1, hp1⟩ := ih1 h
    obtain ⟨m₂, h2, hp2⟩ := ih2 h1
    exact ⟨_, h2, hp1.trans hp2⟩

omit ht in
theorem FieldEntries.keys {es : JsonObject} {fs : List (Value × SField)} (h : FieldEntries lib es fs)
    (hn : (es.map Prod.fst).Nodup) : (fs.map Prod.fst).Nodup := by
  have : fs.map Prod.fst = (es.map Prod.fst).map Value.text := by
    clear hn
    induction es generalizing fs with
    | nil => cases h; rfl
    | cons e es ih => cases h with | cons h hs => simp [ih hs]
  rw [this]
  exact hn.map fun a b h => by simpa [Value.text] using h

omit ht in
theorem VariantEntries.keys {es : JsonObject} {fs : List (String × SVariant)} (h : VariantEntries lib es fs)
    (hn : (es.map Prod.fst).Nodup) : (fs.map Prod.fst).Nodup := by
  have : fs.map Prod.fst = es.map Prod.fst := by
    clear hn
    induction es generalizing fs with
    | nil => cases h; rfl
    | cons e es ih => cases h with | cons h hs => simp [ih hs]
  rwa [this]

omit ht in
theorem SameOpt.of_eq {o o' : Option Json} {j : Json} (h : SameOpt o o') (ho : o = .some j) :
    ∃ k, o' = .some k ∧ Reordered j k := by subst ho; exact h.some

/-- `LayoutObj.rec` with the relations of the other documents. -/
theorem stable_layoutObj {o o' : JsonObject} {l : SLayout} (hd : LayoutObj lib o l) (ho : SameObj o o') : LayoutObj lib o' l := by
  revert o'
  refine LayoutObj.rec
    (motive_1 := fun o l _ => ∀ {o'}, SameObj o o' → LayoutObj lib o' l)
    (motive_2 := fun j r _ => ∀ {j'}, Reordered j j' → RefDoc lib j' r)
    (motive_3 := fun d j f _ => ∀ {j'}, Reordered j j' → FormatDoc lib d j' f)
    (motive_4 := fun j f _ => ∀ {j'}, Reordered j j' → FieldDoc lib j' f)
    (motive_5 := fun j fs _ => ∀ {j'}, SameOpt j j' → FieldsDoc lib j' fs)
    (motive_6 := fun o fs _ => ∀ {o'}, ReorderedEntries o o' → FieldEntries lib o' fs)
    (motive_7 := fun j v _ => ∀ {j'}, Reordered j j' → VariantDoc lib j' v)
    (motive_8 := fun j vs _ => ∀ {j'}, SameOpt j j' → VariantsDoc lib j' vs)
    (motive_9 := fun o vs _ => ∀ {o'}, ReorderedEntries o o' → VariantEntries lib o' vs)
    (motive_10 := fun j i _ => ∀ {j'}, Reordered j j' → ItemDoc lib j' i)
    (motive_11 := fun j is _ => ∀ {j'}, SameOpt j j' → ItemsDoc lib j' is)
    (motive_12 := fun l is _ => ∀ {l'}, ReorderedItems l l' → ItemList lib l' is)
    (motive_13 := fun j n _ => ∀ {j'}, Reordered j j' → NodeDoc lib j' n)
    ?_ ?_ ?_ ?_ ?_ ?_ ?_ ?_ ?_ ?_ ?_ ?_ ?_ ?_ ?_ ?_ ?_ ?_ ?_ ?_ ?_ ?_ ?_ ?_ ?_ ?_ ?_ ?_ ?_ ?_ ?_ ?_ ?_ ?_ ?_ ?_ hd
  · intro o h k hk hc o' ho
    exact .unit (hk.stable ht ho) (hc.stable stable_const (ho.lookup _))
  · intro o h r dt hk hr hdt o' ho
    exact .boolean (hk.stable ht ho) (hr.stable stable_pattern (ho.lookup _)) (hdt.stable stable_iri (ho.lookup _))
  · intro o h r dt hk hr hdt o' ho
    exact .number (hk.stable ht ho) (hr.stable stable_pattern (ho.lookup _)) (hdt.stable stable_iri (ho.lookup _))
  · intro o h r dt hk hr hdt o' ho
    exact .byteString (hk.stable ht ho) (hr.stable stable_pattern (ho.lookup _)) (hdt.stable stable_iri (ho.lookup _))
  · intro o h e r dt hk he hr hdt o' ho
    exact .textString (hk.stable ht ho) (he.stable stable_regexp (ho.lookup _))
      (hr.stable stable_pattern (ho.lookup _)) (hdt.stable stable_iri (ho.lookup _))
  · intro o h e r hk he hr o' ho
    exact .id (hk.stable ht ho) (he.stable stable_regexp (ho.lookup _)) (hr.stable stable_pattern (ho.lookup _))
  · intro o h fs hk _ ih o' ho
    exact .record (hk.stable ht ho) (ih (ho.lookup _))
  · intro o h vs hk _ ih o' ho
    exact .sum (hk.stable ht ho) (ih (ho.lookup _))
  · intro o h j n hd tl hk hj _ hh htl ih o' ho
    obtain ⟨k, hk', hr⟩ := (ho.lookup "node").of_eq hj
    exact .list (hk.stable ht ho) hk' (ih hr) (hh.stable stable_pattern (ho.lookup _)) (htl.stable stable_pattern (ho.lookup _))
  · intro o h j i hk hj _ ih o' ho
    obtain ⟨k, hk', hr⟩ := (ho.lookup "item").of_eq hj
    exact .set (hk.stable ht ho) hk' (ih hr)
  · intro o h is hk _ ih o' ho
    exact .tuple (hk.stable ht ho) (ih (ho.lookup _))
  · intro o h hk o' ho
    exact .union (hk.stable ht ho)
  · intro o h hk o' ho
    exact .intersection (hk.stable ht ho)
  · intro i hi j' h
    rw [reordered_string h]; exact .ref hi
  · intro o l _ ih j' h
    obtain ⟨o', rfl, ho⟩ := reordered_object h
    exact .layout (ih ho)
  · intro dflt i hi j' h
    rw [reordered_string h]; exact .ref hi
  · intro dflt o l _ ih j' h
    obtain ⟨o', rfl, ho⟩ := reordered_object h
    exact .layout (ih ho)
  · intro dflt o j r input graph hm hj _ hi hg ih j' h
    obtain ⟨o', rfl, ho⟩ := reordered_object h
    obtain ⟨k, hk', hr'⟩ := (ho.lookup "layout").of_eq hj
    exact .format (ho.members _ hm) hk' (ih hr') (hi.stable (stable_oneOrMany stable_pattern) (ho.lookup _))
      (hg.stable stable_graph (ho.lookup _))
  · intro o intro j v ds p req hm hi hj _ hds hp hr ih j' h
    obtain ⟨o', rfl, ho⟩ := reordered_object h
    obtain ⟨k, hk', hr'⟩ := (ho.lookup "value").of_eq hj
    exact .mk (ho.members _ hm) (hi.stable (stable_oneOrMany stable_string) (ho.lookup _)) hk' (ih hr')
      (hds.stable stable_dataset (ho.lookup _)) (hp.stable stable_pattern (ho.lookup _)) (hr.stable stable_bool (ho.lookup _))
  · intro j' h
    match j', h with
    | none, _ => exact .absent
  · intro es fs hf ih j' h
    obtain ⟨k, rfl, hr⟩ := h.some
    cases hr with
    | refl => exact .present hf
    | object hn he hp =>
      obtain ⟨fs', h1, hp'⟩ := FieldEntries.perm (ih he) hp
      rw [bmapCollect_perm Value.le_totalOrder hp' (hf.keys hn)]
      exact .present h1
  · intro o' h
    cases h; exact .nil
  · intro k j f es fs _ _ ih ihs o' h
    cases h with | cons h hs => exact .cons (ih h) (ihs hs)
  · intro o intro j v ds hm hi hj _ hds ih j' h
    obtain ⟨o', rfl, ho⟩ := reordered_object h
    obtain ⟨k, hk', hr'⟩ := (ho.lookup "value").of_eq hj
    exact .mk (ho.members _ hm) (hi.stable (stable_oneOrMany stable_string) (ho.lookup _)) hk' (ih hr')
      (hds.stable stable_dataset (ho.lookup _))
  · intro j' h
    match j', h with
    | none, _ => exact .absent
  · intro es fs hf ih j' h
    obtain ⟨k, rfl, hr⟩ := h.some
    cases hr with
    | refl => exact .present hf
    | object hn he hp =>
      obtain ⟨fs', h1, hp'⟩ := VariantEntries.perm (ih he) hp
      rw [bmapCollect_perm strLe_totalOrder hp' (hf.keys hn)]
      exact .present h1
  · intro o' h
    cases h; exact .nil
  · intro k j f es fs _ _ ih ihs o' h
    cases h with | cons h hs => exact .cons (ih h) (ihs hs)
  · intro o intro j v ds p hm hi hj _ hds hp ih j' h
    obtain ⟨o', rfl, ho⟩ := reordered_object h
    obtain ⟨k, hk', hr'⟩ := (ho.lookup "value").of_eq hj
    exact .mk (ho.members _ hm) (hi.stable (stable_oneOrMany stable_string) (ho.lookup _)) hk' (ih hr')
      (hds.stable stable_dataset (ho.lookup _)) (hp.stable stable_pattern (ho.lookup _))
  · intro j' h
    match j', h with
    | none, _ => exact .absent
  · intro js is _ ih j' h
    obtain ⟨k, rfl, hr⟩ := h.some
    obtain ⟨l', rfl, hl⟩ := reordered_array hr
    exact .present (ih hl)
  · intro l' h
    cases h; exact .nil
  · intro j i js is _ _ ih ihs l' h
    cases h with | cons h hs => exact .cons (ih h) (ihs hs)
  · intro i hi j' h
    rw [reordered_string h]; exact .ref hi
  · intro o l _ ih j' h
    obtain ⟨o', rfl, ho⟩ := reordered_object h
    exact .layout (ih ho)
  · intro o head rest intro j v ds hm hh hr hi hj _ hds ih j' h
    obtain ⟨o', rfl, ho⟩ := reordered_object h
    obtain ⟨k, hk', hr'⟩ := (ho.lookup "value").of_eq hj
    exact .node (ho.members _ hm) (hh.stable stable_string (ho.lookup _)) (hr.stable stable_string (ho.lookup _))
      (hi.stable (stable_oneOrMany stable_string) (ho.lookup _)) hk' (ih hr')
      (hds.stable stable_dataset (ho.lookup _))

theorem stable_layout : Stable (LayoutDoc lib) := fun j j' l h hd => by
  cases hd with
  | bool b => rw [reordered_atom h (by simp) (by simp)]; exact .bool b
  | object hl =>
    obtain ⟨o', rfl, ho⟩ := reordered_object h
    exact .object (stable_layoutObj ht hl ho)

end Verif
