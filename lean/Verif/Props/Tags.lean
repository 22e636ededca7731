import Verif.TagSpec
import Verif.CborLemmas
import Verif.Props.Data

/-!
# Tags of values at any depth (C49)
-/

set_option linter.unusedSectionVars false
set_option linter.unusedSimpArgs false

namespace Verif.Props

variable {F R ε : Type} (toF64 : Rat → F) (collect : List (Cbor F × Cbor F) → List (Cbor F × Cbor F))
  (tagOf : R → Out ε (Option Nat))

theorem addTag_wrapped {ty : R} {w c : Cbor F} : addTag tagOf (some ty) w = .ok c ↔ Wrapped tagOf ty w c := by
  simp only [addTag, Out.bind_eq_ok, Wrapped]
  constructor
  · rintro ⟨t, h1, h2⟩
    cases t with
    | some t => injection h2 with h2; exact .inl ⟨t, h1, h2.symm⟩
    | none => injection h2 with h2; exact .inr ⟨h1, h2.symm⟩
  · rintro (⟨t, h1, rfl⟩ | ⟨h1, rfl⟩)
    · exact ⟨_, h1, rfl⟩
    · exact ⟨_, h1, rfl⟩

mutual
theorem carries_of_tagged : (v : TypedValue R) → (c : Cbor F) → v.toTaggedCbor toF64 collect tagOf = .ok c →
    Carries toF64 collect tagOf v c
  | .always v, c, h => by
    rw [TypedValue.toTaggedCbor, Out.bind_eq_ok] at h
    obtain ⟨w, h1, h2⟩ := h
    injection h2 with h2
    exact .always (h2 ▸ lift_eq_ok h1)
  | .literal l, c, h => by
    rw [TypedValue.toTaggedCbor, Out.bind_eq_ok] at h
    obtain ⟨w, h1, h2⟩ := h
    exact .literal (lift_eq_ok h1) ((addTag_wrapped tagOf).1 h2)
  | .variant v ty i, c, h => by
    rw [TypedValue.toTaggedCbor, Out.bind_eq_ok] at h
    obtain ⟨w, h1, h2⟩ := h
    exact .variant (carries_of_tagged v w h1) ((addTag_wrapped tagOf).1 h2)
  | .map m ty, c, h => by
    rw [TypedValue.toTaggedCbor, Out.bind_eq_ok] at h
    obtain ⟨w, h1, h2⟩ := h
    obtain ⟨hk, hv⟩ := carries_of_entries m w h1
    exact .map hk hv ((addTag_wrapped tagOf).1 h2)
  | .list l ty, c, h => by
    rw [TypedValue.toTaggedCbor, Out.bind_eq_ok] at h
    obtain ⟨w, h1, h2⟩ := h
    exact .list (carries_of_items l w h1) ((addTag_wrapped tagOf).1 h2)

theorem carries_of_entries : (m : List (Value × TypedValue R)) → (es : List (Cbor F × Cbor F)) →
    TypedValue.entriesToTaggedCbor toF64 collect tagOf m = .ok es →
    List.Forall₂ (fun (k : Value) c => k.toCbor toF64 collect = .ok c) (m.map Prod.fst) (es.map Prod.fst) ∧
    List.Forall₂ (Carries toF64 collect tagOf) (m.map Prod.snd) (es.map Prod.snd)
  | [], es, h => by
    rw [TypedValue.entriesToTaggedCbor] at h
    injection h with h
    subst h
    exact ⟨.nil, .nil⟩
  | (k, v) :: m, es, h => by
    simp only [TypedValue.entriesToTaggedCbor, Out.bind_eq_ok] at h
    obtain ⟨ck, h1, cv, h2, cm, h3, h4⟩ := h
    injection h4 with h4
    subst h4
    obtain ⟨hk, hv⟩ := carries_of_entries m cm h3
    exact ⟨.cons (lift_eq_ok h1) hk, .cons (carries_of_tagged v cv h2) hv⟩

theorem carries_of_items : (l : List (TypedValue R)) → (ws : List (Cbor F)) →
    TypedValue.itemsToTaggedCbor toF64 collect tagOf l = .ok ws → List.Forall₂ (Carries toF64 collect tagOf) l ws
  | [], es, h => by
    rw [TypedValue.itemsToTaggedCbor] at h
    injection h with h
    subst h
    exact .nil
  | v :: l, es, h => by
    simp only [TypedValue.itemsToTaggedCbor, Out.bind_eq_ok] at h
    obtain ⟨cv, h2, cm, h3, h4⟩ := h
    injection h4 with h4
    subst h4
    exact .cons (carries_of_tagged v cv h2) (carries_of_items l cm h3)
end

mutual
theorem tagged_of_carries : (v : TypedValue R) → (c : Cbor F) → Carries toF64 collect tagOf v c →
    v.toTaggedCbor toF64 collect tagOf = .ok c
  | .always v, c, h => by
    cases h with
    | always h => rw [TypedValue.toTaggedCbor, h]; rfl
  | .literal l, c, h => by
    cases h with
    | literal h hw => rw [TypedValue.toTaggedCbor, h]; exact (addTag_wrapped tagOf).2 hw
  | .variant v ty i, c, h => by
    cases h with
    | variant h hw => rw [TypedValue.toTaggedCbor, tagged_of_carries v _ h]; exact (addTag_wrapped tagOf).2 hw
  | .map m ty, c, h => by
    cases h with
    | map hk hv hw => rw [TypedValue.toTaggedCbor, entries_of_carries m _ hk hv]; exact (addTag_wrapped tagOf).2 hw
  | .list l ty, c, h => by
    cases h with
    | list h hw => rw [TypedValue.toTaggedCbor, items_of_carries l _ h]; exact (addTag_wrapped tagOf).2 hw

theorem entries_of_carries : (m : List (Value × TypedValue R)) → (es : List (Cbor F × Cbor F)) →
    List.Forall₂ (fun (k : Value) c => k.toCbor toF64 collect = .ok c) (m.map Prod.fst) (es.map Prod.fst) →
    List.Forall₂ (Carries toF64 collect tagOf) (m.map Prod.snd) (es.map Prod.snd) →
    TypedValue.entriesToTaggedCbor toF64 collect tagOf m = .ok es
  | [], [], _, _ => by rw [TypedValue.entriesToTaggedCbor]
  | [], _ :: _, h, _ => nomatch h
  | _ :: _, [], h, _ => nomatch h
  | (k, v) :: m, (ck, cv) :: es, .cons h1 h2, .cons h3 h4 => by
    have h1 : k.toCbor toF64 collect = .ok ck := h1
    rw [TypedValue.entriesToTaggedCbor, h1, tagged_of_carries v cv h3, entries_of_carries m es h2 h4]
    rfl

theorem items_of_carries : (l : List (TypedValue R)) → (ws : List (Cbor F)) →
    List.Forall₂ (Carries toF64 collect tagOf) l ws → TypedValue.itemsToTaggedCbor toF64 collect tagOf l = .ok ws
  | [], [], _ => by rw [TypedValue.itemsToTaggedCbor]
  | [], _ :: _, h => nomatch h
  | _ :: _, [], h => nomatch h
  | v :: l, c :: ws, .cons h1 h2 => by
    rw [TypedValue.itemsToTaggedCbor, tagged_of_carries v c h1, items_of_carries l ws h2]
    rfl
end

/-- **C49**, at any depth. The tagged encoding of a tree is the encoding in which every value, however deep, is wrapped in the
tag of its layout. -/
theorem C49_everywhere (v : TypedValue R) (c : Cbor F) :
    v.toTaggedCbor toF64 collect tagOf = .ok c ↔ Carries toF64 collect tagOf v c :=
  ⟨carries_of_tagged toF64 collect tagOf v c, tagged_of_carries toF64 collect tagOf v c⟩

theorem lift_no_err {α : Type} {x : Out Empty α} {e : ε} (h : (x.lift : Out ε α) = .err e) : False := by
  cases x with
  | ok a => cases h
  | err e => exact nomatch e
  | panic => cases h
  | fuel => cases h

theorem addTag_err {ty : R} {w : Cbor F} {e : ε} (h : addTag tagOf (some ty) w = .err e) : tagOf ty = .err e := by
  rw [addTag] at h
  cases ht : tagOf ty with
  | ok t =>
    rw [ht] at h
    cases t <;> cases h
  | err e' => rw [ht] at h; injection h with h; rw [h]
  | panic => rw [ht] at h; cases h
  | fuel => rw [ht] at h; cases h

mutual
theorem tagged_err : (v : TypedValue R) → (e : ε) → v.toTaggedCbor toF64 collect tagOf = .err e →
    ∃ ty, TypeInside ty v ∧ tagOf ty = .err e
  | .always v, e, h => by
    rw [TypedValue.toTaggedCbor] at h
    cases hx : ((v.toCbor toF64 collect).lift : Out ε (Cbor F)) with
    | ok w => rw [hx] at h; cases h
    | err e' => exact (lift_no_err hx).elim
    | panic => rw [hx] at h; cases h
    | fuel => rw [hx] at h; cases h
  | .literal l, e, h => by
    rw [TypedValue.toTaggedCbor] at h
    cases hx : ((l.toCbor toF64).lift : Out ε (Cbor F)) with
    | ok w => rw [hx] at h; exact ⟨_, .literal l, addTag_err tagOf h⟩
    | err e' => exact (lift_no_err hx).elim
    | panic => rw [hx] at h; cases h
    | fuel => rw [hx] at h; cases h
  | .variant v ty i, e, h => by
    rw [TypedValue.toTaggedCbor] at h
    cases hx : v.toTaggedCbor toF64 collect tagOf with
    | ok w => rw [hx] at h; exact ⟨_, .variant v ty i, addTag_err tagOf h⟩
    | err e' =>
      rw [hx] at h
      injection h with h
      subst h
      obtain ⟨r, h1, h2⟩ := tagged_err v e' hx
      exact ⟨r, .inner ty i h1, h2⟩
    | panic => rw [hx] at h; cases h
    | fuel => rw [hx] at h; cases h
  | .map m ty, e, h => by
    rw [TypedValue.toTaggedCbor] at h
    cases hx : TypedValue.entriesToTaggedCbor toF64 collect tagOf m with
    | ok w => rw [hx] at h; exact ⟨_, .map m ty, addTag_err tagOf h⟩
    | err e' =>
      rw [hx] at h
      injection h with h
      subst h
      obtain ⟨d, hd, r, h1, h2⟩ := entries_err m e' hx
      exact ⟨r, .entry ty hd h1, h2⟩
    | panic => rw [hx] at h; cases h
    | fuel => rw [hx] at h; cases h
  | .list l ty, e, h => by
    rw [TypedValue.toTaggedCbor] at h
    cases hx : TypedValue.itemsToTaggedCbor toF64 collect tagOf l with
    | ok w => rw [hx] at h; exact ⟨_, .list l ty, addTag_err tagOf h⟩
    | err e' =>
      rw [hx] at h
      injection h with h
      subst h
      obtain ⟨d, hd, r, h1, h2⟩ := items_err l e' hx
      exact ⟨r, .item ty hd h1, h2⟩
    | panic => rw [hx] at h; cases h
    | fuel => rw [hx] at h; cases h

theorem entries_err : (m : List (Value × TypedValue R)) → (e : ε) →
    TypedValue.entriesToTaggedCbor toF64 collect tagOf m = .err e →
    ∃ d ∈ m, ∃ ty, TypeInside ty d.2 ∧ tagOf ty = .err e
  | [], e, h => by
    rw [TypedValue.entriesToTaggedCbor] at h
    cases h
  | (k, v) :: m, e, h => by
    rw [TypedValue.entriesToTaggedCbor] at h
    cases hk : ((k.toCbor toF64 collect).lift : Out ε (Cbor F)) with
    | err e' => exact (lift_no_err hk).elim
    | panic => rw [hk] at h; cases h
    | fuel => rw [hk] at h; cases h
    | ok ck =>
      rw [hk] at h
      cases hv : v.toTaggedCbor toF64 collect tagOf with
      | err e' =>
        rw [hv] at h
        injection h with h
        subst h
        obtain ⟨r, h1, h2⟩ := tagged_err v e' hv
        exact ⟨(k, v), by simp, r, h1, h2⟩
      | panic => rw [hv] at h; cases h
      | fuel => rw [hv] at h; cases h
      | ok cv =>
        rw [hv] at h
        cases hm : TypedValue.entriesToTaggedCbor toF64 collect tagOf m with
        | ok w => rw [hm] at h; cases h
        | err e' =>
          rw [hm] at h
          injection h with h
          subst h
          obtain ⟨d, hd, r, h1, h2⟩ := entries_err m e' hm
          exact ⟨d, by simp [hd], r, h1, h2⟩
        | panic => rw [hm] at h; cases h
        | fuel => rw [hm] at h; cases h

theorem items_err : (l : List (TypedValue R)) → (e : ε) →
    TypedValue.itemsToTaggedCbor toF64 collect tagOf l = .err e → ∃ d ∈ l, ∃ ty, TypeInside ty d ∧ tagOf ty = .err e
  | [], e, h => by
    rw [TypedValue.itemsToTaggedCbor] at h
    cases h
  | v :: l, e, h => by
    rw [TypedValue.itemsToTaggedCbor] at h
    cases hv : v.toTaggedCbor toF64 collect tagOf with
    | err e' =>
      rw [hv] at h
      injection h with h
      subst h
      obtain ⟨r, h1, h2⟩ := tagged_err v e' hv
      exact ⟨v, by simp, r, h1, h2⟩
    | panic => rw [hv] at h; cases h
    | fuel => rw [hv] at h; cases h
    | ok cv =>
      rw [hv] at h
      cases hm : TypedValue.itemsToTaggedCbor toF64 collect tagOf l with
      | ok w => rw [hm] at h; cases h
      | err e' =>
        rw [hm] at h
        injection h with h
        subst h
        obtain ⟨d, hd, r, h1, h2⟩ := items_err l e' hm
        exact ⟨d, by simp [hd], r, h1, h2⟩
      | panic => rw [hm] at h; cases h
      | fuel => rw [hm] at h; cases h
end

theorem wrapped_tag {ty : R} {w c : Cbor F} (h : Wrapped tagOf ty w c) : ∃ t, tagOf ty = .ok t := by
  rcases h with ⟨t, h, -⟩ | ⟨h, -⟩
  · exact ⟨_, h⟩
  · exact ⟨_, h⟩

theorem forall2_of_mem {α β : Type _} {P : α → β → Prop} {l : List α} {l' : List β} (h : List.Forall₂ P l l') {a : α}
    (ha : a ∈ l) : ∃ b, P a b := by
  induction h with
  | nil => cases ha
  | cons h1 _ ih =>
    rcases List.mem_cons.1 ha with h | h
    · exact ⟨_, h ▸ h1⟩
    · exact ih h

theorem carries_tag {ty : R} {v : TypedValue R} (hi : TypeInside ty v) :
    ∀ {c : Cbor F}, Carries toF64 collect tagOf v c → ∃ t, tagOf ty = .ok t := by
  induction hi with
  | literal l => intro c h; cases h with | literal _ hw => exact wrapped_tag tagOf hw
  | variant v ty i => intro c h; cases h with | variant _ hw => exact wrapped_tag tagOf hw
  | inner ty i h ih => intro c h; cases h with | variant h _ => exact ih h
  | map m ty => intro c h; cases h with | map _ _ hw => exact wrapped_tag tagOf hw
  | @entry r m e ty he h ih =>
    intro c h
    cases h with
    | map _ hv _ =>
      obtain ⟨d, h⟩ := forall2_of_mem hv (List.mem_map_of_mem (f := Prod.snd) he)
      exact ih h
  | list l ty => intro c h; cases h with | list _ hw => exact wrapped_tag tagOf hw
  | @item r l v ty hm h ih =>
    intro c h
    cases h with
    | list hv _ =>
      obtain ⟨d, h⟩ := forall2_of_mem hv hm
      exact ih h

/-- **C49**, invalid declarations. If the tag of the layout of some value of the tree, however deep, is declared in a wrong way,
the tree has no tagged encoding; and an error is always the error of the declaration of such a layout. -/
theorem C49_reported (v : TypedValue R) (e : ε) :
    (∀ ty, TypeInside ty v → tagOf ty = .err e → ∀ c : Cbor F, v.toTaggedCbor toF64 collect tagOf ≠ .ok c) ∧
    (v.toTaggedCbor toF64 collect tagOf = .err e → ∃ ty, TypeInside ty v ∧ tagOf ty = .err e) := by
  refine ⟨fun ty hi he c hc => ?_, tagged_err toF64 collect tagOf v e⟩
  obtain ⟨t, ht⟩ := carries_tag toF64 collect tagOf hi ((C49_everywhere toF64 collect tagOf v c).1 hc)
  rw [he] at ht
  cases ht

/-- A list in a record: the tag of the items is found inside. -/
example : Carries (fun q => q) (fun l => l) tag42
    (.map [(.literal (.textString "names"), .list [.literal (.textString "a" 1), .literal (.textString "b" 2)] 3)] 4)
    (.map [(.text "names", .array [.tag 42 (.text "a"), .text "b"])]) := by
  have h1 : tag42 1 = .ok (some 42) := by decide +kernel
  have h2 : tag42 2 = .ok none := by decide +kernel
  have h3 : tag42 3 = .ok none := by decide +kernel
  have h4 : tag42 4 = .ok none := by decide +kernel
  refine .map (es := [(.text "names", .array [.tag 42 (.text "a"), .text "b"])]) ?_ ?_ (.inr ⟨h4, rfl⟩)
  · exact .cons rfl .nil
  · refine .cons (.list (.cons (.literal rfl (.inl ⟨42, h1, rfl⟩)) (.cons (.literal rfl (.inr ⟨h2, rfl⟩)) .nil))
      (.inr ⟨h3, rfl⟩)) .nil

theorem tagOfLiterals_append (pre : List RdfLit) (hpre : ∀ l ∈ pre, ∃ t, l.type = .langString t) (rest : List RdfLit) :
    tagOfLiterals (pre ++ rest) = tagOfLiterals rest := by
  induction pre with
  | nil => rfl
  | cons l pre ih =>
    obtain ⟨t, ht⟩ := hpre l (by simp)
    rw [List.cons_append, tagOfLiterals, ht]
    exact ih fun m hm => hpre m (by simp [hm])

/-- **C49**, several literals. Language strings are passed over, and the first literal that has a datatype decides, as if it were
the only one. If there are only language strings, that is reported. -/
theorem C49_literals [DecidableEq R] (extra : R → Option (List (R × R))) (iriResource : String → Option R)
    (literalsOf : R → List RdfLit) (ref prop value : R) (props : List (R × R))
    (he : extra ref = some props) (hp : iriResource "https://schema.treeldr.org/cbor#tag" = some prop)
    (hv : props.lookup prop = some value) (pre : List RdfLit) (hpre : ∀ l ∈ pre, ∃ t, l.type = .langString t) :
    (∀ l ty rest, l.type = .any ty → literalsOf value = pre ++ l :: rest →
      getLayoutTag extra iriResource literalsOf ref = getLayoutTag extra iriResource (fun _ => [l]) ref) ∧
    (literalsOf value = pre → getLayoutTag extra iriResource literalsOf ref = .err .nonLiteral) := by
  have hp' : iriResource cborTagIri = some prop := hp
  have hg : ∀ f, getLayoutTag extra iriResource f ref = tagOfLiterals (f value) := by
    intro f
    simp only [getLayoutTag, he, Out.ofOption, Out.bind_ok, hp', hv]
  refine ⟨fun l ty rest hl h => ?_, fun h => ?_⟩
  · rw [hg, hg, h, tagOfLiterals_append pre hpre, tagOfLiterals, tagOfLiterals, hl]
  · rw [hg, h, ← List.append_nil pre, tagOfLiterals_append pre hpre]
    rfl

example : getLayoutTag (R := Nat) (fun _ => some [(10, 11)]) (fun s => if s = cborTagIri then some 10 else none)
    (fun _ => [⟨"forty-two", .langString "en"⟩, ⟨"42", .any "http://www.w3.org/2001/XMLSchema#unsignedByte"⟩,
      ⟨"43", .any "http://www.w3.org/2001/XMLSchema#unsignedByte"⟩]) 1 = .ok (some 42) := by decide +kernel

end Verif.Props
