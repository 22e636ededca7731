import Verif.MoreVariantsSpec
import Verif.DehydrateGraph

/-!
# Dehydration with more variants

Helper lemmas for C105. No further code is modelled.
-/

set_option linter.unusedSectionVars false
set_option linter.unusedSimpArgs false

namespace Verif

/-- If the first computation ends, the second one does the same. -/
def DeM.Follows {α : Type} (x y : DeM α) : Prop := ∀ s, (x s).1 = .fuel ∨ y s = x s

namespace DeM.Follows

variable {α β : Type}

theorem same (x : DeM α) : Follows x x := fun _ => .inr rfl

theorem bind {x y : DeM α} {k k' : α → DeM β} (h : Follows x y) (hk : ∀ a, Follows (k a) (k' a)) : Follows (x.bind k) (y.bind k') := by
  intro s
  unfold DeM.bind
  rcases hx : x s with ⟨a | e | _ | _, s₁⟩
  · rcases h s with h | h
    · rw [hx] at h; exact nomatch h
    · rw [h, hx]; exact hk a s₁
  · rcases h s with h | h
    · rw [hx] at h; exact nomatch h
    · rw [h, hx]; exact .inr rfl
  · rcases h s with h | h
    · rw [hx] at h; exact nomatch h
    · rw [h, hx]; exact .inr rfl
  · exact .inl rfl

theorem bindSame {x : DeM α} {k k' : α → DeM β} (hk : ∀ a, Follows (k a) (k' a)) : Follows (x.bind k) (x.bind k') := bind (same x) hk

end DeM.Follows

namespace Dehydrate

variable {c : DeCtx} {rec rec' : Rec} {g : Option IRes} {env : Env IRes}

theorem subValue_follows {fmt : ValueFormat Term} {v : Value} (h : ∀ g i, DeM.Follows (rec v g fmt.layout i) (rec' v g fmt.layout i))
    (env : Env IRes) : DeM.Follows (subValue rec g fmt env v) (subValue rec' g fmt env v) :=
  .bindSame fun _ => .bindSame fun _ => h _ _

theorem entries_follows {fs : List (Value × Field Term)} {m : List (Value × Value)}
    (hrec : ∀ e ∈ m, ∀ f ∈ fs, ∀ g i, DeM.Follows (rec e.2 g f.2.value.layout i) (rec' e.2 g f.2.value.layout i)) :
    DeM.Follows (entries rec g env fs m) (entries rec' g env fs m) := by
  induction m with
  | nil => exact .same _
  | cons e m ih =>
    obtain ⟨k, w⟩ := e
    rw [List.forall_mem_cons] at hrec
    unfold entries
    cases hl : lookup k fs with
    | none => exact .same _
    | some f =>
      have hf : ∃ e ∈ fs, e.2 = f := by
        unfold lookup at hl
        obtain ⟨e, he, rfl⟩ := Option.map_eq_some_iff.1 hl
        exact ⟨e, List.mem_of_find?_eq_some he, rfl⟩
      obtain ⟨e, he, rfl⟩ := hf
      exact .bindSame fun _ => .bindSame fun _ => (subValue_follows (hrec.1 e he) _).bind fun _ => ih hrec.2

theorem variants_follows {v : Value} {vs : List (Variant Term)}
    (hrec : ∀ x ∈ vs, ∀ g i, DeM.Follows (rec v g x.value.layout i) (rec' v g x.value.layout i)) (sel : Option (List (Quad IRes))) :
    DeM.Follows (variants rec g env v vs sel) (variants rec' g env v vs sel) := by
  induction vs generalizing sel with
  | nil => cases sel <;> exact .same _
  | cons x vs ih =>
    rw [List.forall_mem_cons] at hrec
    unfold variants
    refine .bindSame fun venv => .bindSame fun quads => fun s => ?_
    have h := subValue_follows (g := g) hrec.1 venv s
    rcases hx : subValue rec g x.value venv v s with ⟨a | e | _ | _, s₁⟩ <;> rw [hx] at h
    · rcases h with h | h
      · exact nomatch h
      · rw [h]
        cases sel with
        | some q => exact .inr rfl
        | none => exact ih hrec.2 _ s₁
    · rcases h with h | h
      · exact nomatch h
      · rw [h]; exact ih hrec.2 _ s₁
    · rcases h with h | h
      · exact nomatch h
      · rw [h]; exact .inr rfl
    · exact .inl rfl

theorem items_follows {item : ItemLayout Term} {vs : List Value}
    (hrec : ∀ v ∈ vs, ∀ g i, DeM.Follows (rec v g item.value.layout i) (rec' v g item.value.layout i)) :
    DeM.Follows (items rec g env item vs) (items rec' g env item vs) := by
  induction vs with
  | nil => exact .same _
  | cons v vs ih =>
    rw [List.forall_mem_cons] at hrec
    exact .bindSame fun _ => .bindSame fun _ => (subValue_follows hrec.1 _).bind fun _ => ih hrec.2

theorem nodes_follows {node : ItemLayout Term} {vs : List Value}
    (hrec : ∀ v ∈ vs, ∀ g i, DeM.Follows (rec v g node.value.layout i) (rec' v g node.value.layout i)) (tail : Pattern Term) (head : IRes) :
    DeM.Follows (nodes rec g env node tail head vs) (nodes rec' g env node tail head vs) := by
  induction vs generalizing head with
  | nil => exact .same _
  | cons v vs ih =>
    rw [List.forall_mem_cons] at hrec
    exact .bindSame fun next => .bindSame fun _ => .bindSame fun _ => (subValue_follows hrec.1 _).bind fun _ => ih hrec.2 next

theorem sizedItems_follows {is : List (ItemLayout Term)} {vs : List Value}
    (hrec : ∀ v ∈ vs, ∀ x ∈ is, ∀ g i, DeM.Follows (rec v g x.value.layout i) (rec' v g x.value.layout i)) :
    DeM.Follows (sizedItems rec g env vs is) (sizedItems rec' g env vs is) := by
  induction vs generalizing is with
  | nil => cases is <;> exact .same _
  | cons v vs ih =>
    cases is with
    | nil => exact .same _
    | cons x is =>
      have h1 := hrec v List.mem_cons_self x List.mem_cons_self
      have h2 := ih (is := is) fun w hw y hy => hrec w (List.mem_cons_of_mem _ hw) y (List.mem_cons_of_mem _ hy)
      exact .bindSame fun _ => .bindSame fun _ => (subValue_follows h1 _).bind fun _ => h2

/-- Variants at the end that all fail at the head, without variables of their own, do not matter. -/
theorem variants_append {v : Value} {vs new : List (Variant Term)}
    (hc : ∀ x ∈ new, x.intro = 0 ∧ PatsBelow env.flat.length x.dataset ∧ x.value.Below env.flat.length)
    (h : ∀ x ∈ new, ∀ ρ s, ∃ e, call rec g x.value ρ v s = (.err e, s)) (sel : Option (List (Quad IRes))) :
    variants rec g env v (vs ++ new) sel = variants rec g env v vs sel := by
  induction vs generalizing sel with
  | nil =>
    funext s
    have h1 := variants_skip (ys := []) (fun x hx => by rw [(hc x hx).1]; exact (hc x hx).2) h sel s
    rw [List.append_nil] at h1
    rw [List.nil_append, h1]
    have h2 : (new.map Variant.intro).sum = 0 := by
      clear h h1
      induction new with
      | nil => rfl
      | cons x new ih =>
        rw [List.forall_mem_cons] at hc
        rw [List.map_cons, List.sum_cons, hc.1.1, ih hc.2]
    rw [h2]
    rfl
  | cons x vs ih => simp only [List.cons_append, variants, ih]

theorem layout_more {reg' : Registry Term} {v : Value} (ref : Term) (inputs : List IRes) {l l' : Layout Term}
    (hl : l.MoreVariants (fun k x => x.OtherKind reg' v k) l') (hi : ∀ k, l.inputCount = some k → inputs.length = k)
    (hfail : ∀ r l w, reg' r = some l → l.HeadMismatch w → ∀ g i s, ∃ e, rec' w g r i s = (.err e, s))
    (hrec : ∀ f ∈ l.formats, ∀ w, (∀ u, w.Part u → v.Part u) → ∀ g i, DeM.Follows (rec w g f.layout i) (rec' w g f.layout i)) :
    DeM.Follows (layout c rec v g ref inputs l) (layout c rec' v g ref inputs l') := by
  cases hl with
  | sum input k dataset vs new h =>
    simp only [layout]
    have hlen := hi input rfl
    intro s
    rw [DeM.bind_ok (intro_eq (.root inputs) k s), DeM.bind_ok (intro_eq (.root inputs) k s)]
    have hflat : (Env.child (Env.root inputs) (freshList s.fresh k)).flat.length = input + k := by
      rw [length_flat_child, ← hlen]
      rfl
    rw [variants_append (vs := vs) (new := new)
      (fun x hx => by rw [hflat]; exact ⟨(h x hx).1, (h x hx).2.1, (h x hx).2.2.1⟩)
      (fun x hx ρ s => by
        obtain ⟨-, -, -, l, h1, h2⟩ := h x hx
        exact hfail _ l v h1 (h2 v (.whole v)) _ _ s)]
    exact DeM.Follows.bindSame (fun _ => variants_follows
      (fun x hx => hrec x.value (List.mem_map.2 ⟨x, hx, rfl⟩) v fun u hu => hu) _) _
  | refl l =>
    cases l with
    | never => exact .same _
    | always => exact .same _
    | unit l => exact .same _
    | boolean l => exact .same _
    | number l => exact .same _
    | byteString l => exact .same _
    | textString l => exact .same _
    | id l => exact .same _
    | sum l =>
      exact .bindSame fun _ => .bindSame fun _ => variants_follows
        (fun x hx => hrec x.value (List.mem_map.2 ⟨x, hx, rfl⟩) v fun u hu => hu) _
    | product l =>
      simp only [layout]
      split
      · rename_i m
        exact .bindSame fun _ => .bindSame fun _ => (entries_follows fun e he f hf =>
          hrec f.2.value (List.mem_map.2 ⟨f, hf, rfl⟩) e.2 fun u hu => .entry (k := e.1) he hu).bind fun _ => .same _
      · exact .same _
    | unordered l =>
      simp only [layout]
      split
      · exact .bindSame fun _ => .bindSame fun _ => items_follows fun w hw =>
          hrec l.item.value (by simp [Layout.formats]) w fun u hu => .item hw hu
      · exact .same _
    | ordered l =>
      simp only [layout]
      split
      · exact .bindSame fun _ => .bindSame fun _ => .bindSame fun _ => nodes_follows (fun w hw =>
          hrec l.node.value (by simp [Layout.formats]) w fun u hu => .item hw hu) _ _
      · exact .same _
    | sized l =>
      simp only [layout]
      split
      · exact .bindSame fun _ => .bindSame fun _ => sizedItems_follows fun w hw x hx =>
          hrec x.value (List.mem_map.2 ⟨x, hx, rfl⟩) w fun u hu => .item hw hu
      · exact .same _

theorem moreVariants_mono {P Q : Nat → Variant Term → Prop} (h : ∀ k x, P k x → Q k x) {reg reg' : Registry Term}
    (hr : reg.MoreVariants P reg') : reg.MoreVariants Q reg' := by
  intro r l hl
  obtain ⟨l', h1, h2⟩ := hr r l hl
  refine ⟨l', h1, ?_⟩
  cases h2 with
  | refl => exact .refl _
  | sum _ _ _ _ _ hp => exact .sum _ _ _ _ _ fun x hx => h _ x (hp x hx)

theorem dehydrateWith_more {reg' : Registry Term} (hcomp : c.reg.Complete) (n : Nat) (v : Value)
    (hrel : c.reg.MoreVariants (fun k x => x.OtherKind reg' v k) reg') (g : Option IRes) (ref : Term) (hr : (c.reg ref).isSome = true)
    (inputs : List IRes) :
    DeM.Follows (dehydrateWith c n v g ref inputs) (dehydrateWith { c with reg := reg' } (n + 1) v g ref inputs) := by
  induction n generalizing v g ref inputs with
  | zero => exact fun _ => .inl rfl
  | succ n ih =>
    obtain ⟨l, h⟩ := Option.isSome_iff_exists.1 hr
    obtain ⟨l', h2, h3⟩ := hrel ref l h
    rw [dehydrateWith, dehydrateWith.eq_def _ (n + 1 + 1)]
    dsimp only
    rw [h, h2]
    dsimp only
    have hc : l'.inputCount = l.inputCount := by cases h3 <;> rfl
    rw [hc]
    split
    · exact .same _
    · rename_i hin
      have he : ∀ (rec : Rec) l, layout { c with reg := reg' } rec v g ref inputs l = layout c rec v g ref inputs l := by
        intro rec l
        cases l <;> rfl
      rw [he]
      refine layout_more ref inputs h3 (fun k hk => ?_) (fun r l w hl hw g i s => dehydrateWith_headMismatch _ n g i hl hw s) ?_
      · rw [hk] at hin
        simpa using (not_ne_iff.1 (by simpa using hin) : k = inputs.length).symm
      · intro f hf w hw g i
        exact ih w (moreVariants_mono (fun k x hx => ⟨hx.1, hx.2.1, hx.2.2.1, hx.2.2.2.imp fun l hl => ⟨hl.1, fun u hu => hl.2 u (hw u hu)⟩⟩) hrel)
          g f.layout (hcomp ref l h f hf) i

theorem dehydrate_more {reg' : Registry Term} (hcomp : c.reg.Complete) (n : Nat) (v : Value)
    (hrel : c.reg.MoreVariants (fun k x => x.OtherKind reg' v k) reg') (ref : Term) (hr : (c.reg ref).isSome = true) (o : DeOptions)
    (hn : dehydrate c n v ref o ≠ .fuel) : dehydrate { c with reg := reg' } (n + 1) v ref o = dehydrate c n v ref o := by
  obtain ⟨l, h⟩ := Option.isSome_iff_exists.1 hr
  obtain ⟨l', h2, h3⟩ := hrel ref l h
  have hc : l'.inputCount = l.inputCount := by cases h3 <;> rfl
  unfold dehydrate at hn ⊢
  dsimp only at hn ⊢
  rw [h] at hn ⊢
  rw [h2]
  dsimp only at hn ⊢
  rw [hc]
  rcases dehydrateWith_more hcomp n v hrel none ref hr ((List.range (l.inputCount.getD (o.inputCount.getD 1))).map .input)
    ⟨[], [], 0⟩ with h4 | h4
  · exfalso
    revert hn
    rcases hx : dehydrateWith c n v none ref ((List.range (l.inputCount.getD (o.inputCount.getD 1))).map .input) ⟨[], [], 0⟩ with ⟨a, s⟩
    rw [hx] at h4
    dsimp only at h4
    subst h4
    exact fun hn => hn rfl
  · rw [h4]

end Dehydrate

end Verif
