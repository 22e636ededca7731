import Verif.DeriveSer
import Verif.DehydrateGraph

/-!
# Derived serialization and `dehydrate`, with enumerations

Derived code writes the dataset of the variant before its value, `dehydrate` after it. `Near Q` relates two states of which
the first has written the quads `Q` in addition; runs from related states stay related.
-/

set_option linter.unusedSectionVars false
set_option linter.unusedSimpArgs false

namespace Verif

namespace Derived

open Dehydrate (emit alloc scope)

/-- The same state, but for the order of the quads and for the quads `Q`. -/
structure Near (Q : List (Quad IRes)) (s s' : DeState) : Prop where
  mem : ∀ q, q ∈ s.out ↔ q ∈ s'.out ∨ q ∈ Q
  left : s.out.Nodup
  right : s'.out.Nodup
  terms : s.terms = s'.terms
  fresh : s.fresh = s'.fresh

/-- Both runs succeed, or both need more steps. -/
inductive Res {α : Type} (Q : List (Quad IRes)) : Out DeError α × DeState → Out DeError α × DeState → Prop
  | ok (a : α) {s s' : DeState} : Near Q s s' → Res Q (.ok a, s) (.ok a, s')
  | fuel (s s' : DeState) : Res Q (.fuel, s) (.fuel, s')

/-- Runs from related states are related. -/
def Sim {α : Type} (Q : List (Quad IRes)) (x y : DeM α) : Prop := ∀ s s', Near Q s s' → Res Q (x s) (y s')

variable {Q : List (Quad IRes)} {s s' : DeState}

theorem Near.refl (h : s.out.Nodup) : Near [] s s := ⟨by simp, h, h, rfl, rfl⟩

theorem Near.perm (h : Near [] s s') : s.out.Perm s'.out :=
  (List.perm_ext_iff_of_nodup h.left h.right).2 fun q => by rw [h.mem]; simp

theorem Near.alloc (h : Near Q s s') (k : Nat) : Near Q (alloc k s) (alloc k s') :=
  ⟨h.mem, h.left, h.right, h.terms, by simp [h.fresh]⟩

theorem Near.emit (h : Near Q s s') (ρ : List IRes) (qs : List (QuadPat Term)) :
    Near Q (emit ρ qs s) (emit ρ qs s') := by
  refine ⟨fun q => ?_, Dehydrate.nodup_foldl_insertQuad h.left, Dehydrate.nodup_foldl_insertQuad h.right, h.terms, h.fresh⟩
  rw [Dehydrate.mem_emit, Dehydrate.mem_emit, h.mem, or_right_comm]

/-- Quads that only the first has written. -/
theorem Near.emit_left (h : Near Q s s') (ρ : List IRes) (qs : List (QuadPat Term)) :
    Near (Q ++ qs.map (Dehydrate.quadInst ρ)) (Dehydrate.emit ρ qs s) s' := by
  refine ⟨fun q => ?_, Dehydrate.nodup_foldl_insertQuad h.left, h.right, h.terms, h.fresh⟩
  rw [Dehydrate.mem_emit, h.mem, List.mem_append, List.mem_map]
  tauto

/-- The second writes them too. -/
theorem Near.catch_up {qs : List (Quad IRes)} (h : Near (Q ++ qs) s s') :
    Near Q s { s' with out := qs.foldl Dehydrate.insertQuad s'.out } := by
  refine ⟨fun q => ?_, h.left, Dehydrate.nodup_foldl_insertQuad h.right, h.terms, h.fresh⟩
  rw [Dehydrate.mem_foldl_insertQuad, h.mem, List.mem_append]
  tauto

theorem Near.scope (h : Near Q s s') (ρ : List IRes) (k : Nat) : scope ρ k s = scope ρ k s' := by
  rw [Dehydrate.scope, Dehydrate.scope, h.fresh]

theorem Near.assign (h : Near Q s s') (r : IRes) (t : Term) :
    Res Q (Dehydrate.assign r t s) (Dehydrate.assign r t s') :=
  .ok _ ⟨h.mem, h.left, h.right, by simp only [h.terms], h.fresh⟩

theorem bind_sim {α β : Type} {x y : DeM α} {f g : α → DeM β} (h : Res Q (x s) (y s')) (hf : ∀ a, Sim Q (f a) (g a)) :
    Res Q (x.bind f s) (y.bind g s') := by
  unfold DeM.bind
  generalize x s = a at h ⊢
  generalize y s' = b at h ⊢
  cases h with
  | ok a hn => exact hf a _ _ hn
  | fuel => exact .fuel _ _

/-- The calls of a format are related. -/
def AgreeSim (Q : List (Quad IRes)) (rec : SRec) (rec' : Dehydrate.Rec) (fmt : ValueFormat Term) (v : TypedValue Term) :
    Prop :=
  ∀ g ins, ins.length = fmt.input.length → Sim Q (rec v g fmt.layout ins) (rec' v.untype g fmt.layout ins)

theorem call_sim {rec : SRec} {rec' : Dehydrate.Rec} {fmt : ValueFormat Term} {v : TypedValue Term}
    (h : AgreeSim Q rec rec' fmt v) (g : Option IRes) (ρ : List IRes) :
    Sim Q (call rec g fmt ρ v) (Dehydrate.call rec' g fmt ρ v.untype) := h _ _ (by simp)

theorem items_sim {rec : SRec} {rec' : Dehydrate.Rec} {g : Option IRes} {env : Env IRes} {item : ItemLayout Term}
    (hc : item.Closed (env.flat.length + item.intro)) (vs : List (TypedValue Term))
    (h : ∀ v ∈ vs, AgreeSim Q rec rec' item.value v) :
    Sim Q (writeItems rec g env item vs) (Dehydrate.items rec' g env item (TypedValue.untypeList vs)) := by
  induction vs with
  | nil => exact fun s s' hn => .ok _ hn
  | cons v vs ih =>
    intro s s' hn
    rw [List.forall_mem_cons] at h
    rw [TypedValue.untypeList, Dehydrate.items_cons hc, writeItems, writeItem_bind hc.1 hc.2, hn.scope]
    exact bind_sim (call_sim h.1 _ _ _ _ ((hn.alloc _).emit _ _)) fun _ => ih h.2

theorem sized_sim {rec : SRec} {rec' : Dehydrate.Rec} {g : Option IRes} {env : Env IRes} (is : List (ItemLayout Term))
    (hc : ∀ item ∈ is, item.Closed (env.flat.length + item.intro)) (vs : List (TypedValue Term))
    (hlen : vs.length = is.length) (h : ∀ e ∈ is.zip vs, AgreeSim Q rec rec' e.1.value e.2) :
    Sim Q (writeSized rec g env vs is) (Dehydrate.sizedItems rec' g env (TypedValue.untypeList vs) is) := by
  induction is generalizing vs with
  | nil =>
    cases vs with
    | nil => exact fun s s' hn => .ok _ hn
    | cons => simp at hlen
  | cons item is ih =>
    cases vs with
    | nil => simp at hlen
    | cons v vs =>
      intro s s' hn
      simp only [List.zip_cons_cons, List.forall_mem_cons] at h hc
      rw [TypedValue.untypeList, Dehydrate.sizedItems_cons hc.1, writeSized, writeItem_bind hc.1.1 hc.1.2, hn.scope]
      exact bind_sim (call_sim h.1 _ _ _ _ ((hn.alloc _).emit _ _)) fun _ => ih hc.2 vs (by simpa using hlen) h.2

theorem nodes_sim {rec : SRec} {rec' : Dehydrate.Rec} {g : Option IRes} {env : Env IRes} {node : ItemLayout Term}
    {tail : Pattern Term} (ht : tail.Below env.flat.length)
    (hc : node.Closed (env.flat.length + 2 + node.intro)) (head : IRes) (vs : List (TypedValue Term))
    (h : ∀ v ∈ vs, AgreeSim Q rec rec' node.value v) :
    Sim Q (writeNodes rec g env node tail head vs)
      (Dehydrate.nodes rec' g env node tail head (TypedValue.untypeList vs)) := by
  induction vs generalizing head with
  | nil => exact fun s s' hn => .ok _ hn
  | cons v vs ih =>
    intro s s' hn
    rw [List.forall_mem_cons] at h
    have hl : ∀ next : IRes, (env.bind [head, next]).flat.length = env.flat.length + 2 := by
      intro next; simp [Env.bind, Env.flat]
    have e1 : (if vs.isEmpty then DeM.read fun _ => instPattern env tail else Dehydrate.newResource) =
        (if (TypedValue.untypeList vs).isEmpty then DeM.read fun _ => Dehydrate.instPattern env tail
          else Dehydrate.newResource) := by
      rw [untypeList_isEmpty, inst_eq ht, Dehydrate.instPattern_eq ht]
    rw [TypedValue.untypeList, writeNodes, Dehydrate.nodes, e1]
    refine bind_sim ?_ fun next s s' hn => ?_
    · split
      · rw [Dehydrate.instPattern_eq ht]; exact .ok _ hn
      · simp only [Dehydrate.newResource, hn.fresh]
        exact .ok _ ⟨hn.mem, hn.left, hn.right, hn.terms, rfl⟩
    · rw [writeItem_bind (by rw [hl]; exact hc.1) (by rw [hl]; exact hc.2),
        Dehydrate.intro_emit_call (by rw [hl]; exact hc.1) (by rw [hl]; exact hc.2), hn.scope]
      exact bind_sim (call_sim h.1 _ _ _ _ ((hn.alloc _).emit _ _)) fun _ => ih next h.2

theorem fields_sim {rec : SRec} {rec' : Dehydrate.Rec} {g : Option IRes} {env : Env IRes}
    {fields : List (Value × Field Term)} {m : List (Value × TypedValue Term)}
    (hc : ∀ e ∈ fields, PatsBelow (env.flat.length + e.2.intro) e.2.dataset ∧
      e.2.value.Below (env.flat.length + e.2.intro))
    (hnd : (fields.map Prod.fst).Nodup)
    (hreq : ∀ k f, (k, f) ∈ fields → f.required = true → ∃ v, (k, v) ∈ m)
    (h : ∀ k v f, (k, v) ∈ m → (k, f) ∈ fields → AgreeSim Q rec rec' f.value v)
    (fs : List (Value × Field Term)) (ms : List (Value × TypedValue Term))
    (hfs : fs.Sublist fields) (hms : ∀ e ∈ ms, e ∈ m) (hmnd : (m.map Prod.fst).Nodup)
    (hrest : ∀ e ∈ m, e.1 ∈ fs.map Prod.fst → e ∈ ms)
    (hsub : (ms.map Prod.fst).Sublist (fs.map Prod.fst)) :
    Sim Q (writeFields rec g env m fs) (Dehydrate.entries rec' g env fields (TypedValue.untypeMap ms)) := by
  induction fs generalizing ms with
  | nil =>
    have : ms = [] := by simpa using hsub
    subst this
    exact fun s s' hn => .ok _ hn
  | cons e fs ih =>
    intro s s' hn
    obtain ⟨k, f⟩ := e
    have hin : (k, f) ∈ fields := hfs.subset (by simp)
    have hnd' : ((k, f) :: fs |>.map Prod.fst).Nodup := (hfs.map Prod.fst).nodup hnd
    simp only [List.map_cons, List.nodup_cons] at hnd'
    have hfs' : fs.Sublist fields := (List.sublist_cons_self _ _).trans hfs
    by_cases hk : ∃ v, (k, v) ∈ ms
    · obtain ⟨v, hv⟩ := hk
      have hfind : m.find? (fun e => e.1 == k) = some (k, v) := find_of_nodup hmnd (hms _ hv)
      obtain ⟨e', ms', rfl⟩ : ∃ e' ms', ms = e' :: ms' := by
        cases ms with
        | nil => simp at hv
        | cons e' ms' => exact ⟨e', ms', rfl⟩
      have he' : e' = (k, v) := by
        rcases List.mem_cons.1 hv with h' | h'
        · exact h'.symm
        · exfalso
          simp only [List.map_cons] at hsub
          cases hsub with
          | cons _ hs =>
            exact hnd'.1 (hs.subset (List.mem_cons_of_mem _ (List.mem_map_of_mem (f := Prod.fst) h')))
          | cons_cons _ hs => exact hnd'.1 (hs.subset (List.mem_map.2 ⟨_, h', rfl⟩))
      subst he'
      have hsub' : (ms'.map Prod.fst).Sublist (fs.map Prod.fst) := by
        simp only [List.map_cons] at hsub
        cases hsub with
        | cons _ hs => exact (List.sublist_cons_self _ _).trans hs
        | cons_cons _ hs => exact hs
      have hlk : Dehydrate.lookup k fields = some f := by
        have := find_of_nodup hnd hin
        simp [Dehydrate.lookup, this]
      rw [TypedValue.untypeMap, Dehydrate.entries_cons hlk (hc _ hin).1 (hc _ hin).2, writeFields, hfind]
      simp only
      rw [writeItem_bind (hc _ hin).1 (hc _ hin).2, hn.scope]
      refine bind_sim (call_sim (h k v f (hms _ (by simp)) hin) _ _ _ _ ((hn.alloc _).emit _ _)) fun _ => ?_
      refine ih ms' hfs' (fun e he => hms e (by simp [he])) ?_ hsub'
      intro e he hek
      rcases List.mem_cons.1 (hrest e he (by simp [hek])) with rfl | h'
      · exact absurd hek hnd'.1
      · exact h'
    · have hnk : k ∉ m.map Prod.fst := by
        intro hmem
        obtain ⟨⟨k', v⟩, he, rfl⟩ := List.mem_map.1 hmem
        exact hk ⟨v, hrest _ he (by simp)⟩
      have hnreq : f.required = false := by
        cases hr : f.required with
        | false => rfl
        | true =>
          obtain ⟨v, hv⟩ := hreq k f hin hr
          exact absurd (List.mem_map_of_mem (f := Prod.fst) hv) hnk
      rw [writeFields, find_none hnk]
      simp only [hnreq, Bool.false_eq_true, if_false]
      refine ih ms hfs' hms (fun e he hek => hrest e he (by simp [hek])) ?_ _ _ hn
      have hkms : k ∉ ms.map Prod.fst := by
        intro hmem
        obtain ⟨⟨k', v⟩, he, rfl⟩ := List.mem_map.1 hmem
        exact hk ⟨v, he⟩
      simp only [List.map_cons] at hsub
      generalize hks : ms.map Prod.fst = ks at hsub hkms
      cases hsub with
      | cons _ hs => exact hs
      | cons_cons _ hs => simp at hkms

/-- A layout that rejects a value fails, and leaves the state as it is. -/
theorem rejects_err {c : DeCtx} {n : Nat} {v : Value} {g : Option IRes} {ref : Term} {ins : List IRes} {l : Layout Term}
    (hl : c.reg ref = some l) (hp : ∀ p, l = .product p → p.intro = 0) (h : l.rejects v = true) (s : DeState) :
    ∃ e, Dehydrate.dehydrateWith c (n + 1) v g ref ins s = (.err e, s) := by
  conv => enter [1, e]; lhs; unfold Dehydrate.dehydrateWith
  rw [hl]
  simp only
  split
  · exact ⟨_, rfl⟩
  · cases l with
    | never => exact ⟨_, rfl⟩
    | always => simp [Layout.rejects] at h
    | sum l => simp [Layout.rejects] at h
    | unit l =>
      simp only [Layout.rejects, ne_eq, decide_not, Bool.not_eq_true', decide_eq_false_iff_not] at h
      exact ⟨.incompatibleLayout, by simp only [Dehydrate.layout, if_neg h]; rfl⟩
    | product l =>
      simp only [Dehydrate.layout]
      split
      · rename_i m
        cases m with
        | nil => simp [Layout.rejects] at h
        | cons e m =>
          obtain ⟨key, w⟩ := e
          simp only [Layout.rejects, Bool.and_eq_true, List.isEmpty_iff, decide_eq_true_eq] at h
          have hlk : Dehydrate.lookup key l.fields = none := by
            cases hlk : Dehydrate.lookup key l.fields with
            | none => rfl
            | some f => exact absurd rfl (h.2 _ (Dehydrate.mem_of_lookup hlk))
          rw [hp l rfl, h.1]
          rw [Dehydrate.intro_emit (by simp [PatsBelow, patsVars])]
          refine ⟨.incompatibleLayout, ?_⟩
          unfold Dehydrate.entries
          rw [hlk]
          rfl
      · exact ⟨.incompatibleLayout, rfl⟩
    | _ =>
      simp only [Dehydrate.layout]
      split
      · simp [Layout.rejects] at h
      · exact ⟨_, rfl⟩

/-- Literals. -/
theorem literal_sim (c : SeCtx) (hl : SeLaws c) (hreg : c.reg.Closed) (n : Nat)
    (ref : Term) (v : TypedValue Term) (hlv : ∃ lit, v = .literal lit) (hv : HasType c.reg ref v)
    (g : Option IRes) (inputs : List IRes)
    (hin : ∀ l k, c.reg ref = some l → l.inputCount = some k → inputs.length = k) :
    Sim Q (serialize c (n + 1) v g ref inputs) (serialize c (n + 1) v g ref inputs) := by
  intro s s' hn
  have hdata : ∀ {d : DataLayout Term} {l : Layout Term} (lit : TypedLiteral Term),
      c.reg ref = some l → l.inputCount = some 1 → l.datatype? = some d.datatype →
      PatsBelow (1 + d.intro) d.dataset → (d.resource = .var 0 ∨ ∃ t, d.resource = .res t) →
      Res Q (writeData c inputs d lit s) (writeData c inputs d lit s') := by
    intro d l lit hr hcount hd hcl hres
    obtain ⟨i, hi⟩ := hl.datatype _ _ _ hr hd
    have h1 := hin l 1 hr hcount
    rw [writeData_eq h1 hcl hres hi, writeData_eq h1 hcl hres hi, hn.scope]
    exact ((hn.alloc _).emit _ _).assign _ _
  cases hv with
  | @unit _ l hr =>
    have hp : c.prim ref = none := by
      cases hp : c.prim ref with
      | none => rfl
      | some p =>
        obtain ⟨l', h1, h2⟩ := hl.prim _ _ hp
        rw [hr] at h1; injection h1 with h1; subst h1
        cases p <;> simp [Prim.Writes] at h2
    have hb : PatsBelow ((Env.root inputs).flat.length + l.intro) l.dataset := by
      have h1 : (Env.root inputs).flat.length = 1 := hin _ 1 hr rfl
      rw [h1]; exact hreg _ _ hr
    simp only [serialize, hp, hr, writeLayout]
    rw [Dehydrate.intro_bind, Dehydrate.intro_bind, instDataset_eq (by rw [Dehydrate.length_flat_child]; exact hb),
      instDataset_eq (by rw [Dehydrate.length_flat_child]; exact hb), hn.fresh]
    have := (hn.alloc l.intro).emit (Env.child (.root inputs) (Dehydrate.freshList s'.fresh l.intro)).flat l.dataset
    simp only [alloc, hn.fresh] at this
    exact .ok _ this
  | @boolean _ l b hr =>
    have hp : c.prim ref = none := by
      cases hp : c.prim ref with
      | none => rfl
      | some p =>
        obtain ⟨l', h1, h2⟩ := hl.prim _ _ hp
        rw [hr] at h1; injection h1 with h1; subst h1
        cases p <;> simp [Prim.Writes] at h2
    simp only [serialize, hp, hr, writeLayout]
    exact hdata _ hr rfl rfl (hreg _ _ hr).1 (hl.ofInput _ _ hr)
  | @number _ l q hr =>
    cases hp : c.prim ref with
    | none =>
      simp only [serialize, hp, hr, writeLayout]
      exact hdata _ hr rfl rfl (hreg _ _ hr).1 (hl.ofInput _ _ hr)
    | some p =>
      obtain ⟨l', h1, h2⟩ := hl.prim _ _ hp
      rw [hr] at h1; injection h1 with h1; subst h1
      obtain ⟨r, rfl⟩ := List.length_eq_one_iff.1 (hin _ 1 hr rfl)
      cases p <;> simp [Prim.Writes] at h2
      simp only [serialize, hp, writePrim]
      exact hn.assign _ _
  | @textString _ l t hr =>
    cases hp : c.prim ref with
    | none =>
      simp only [serialize, hp, hr, writeLayout]
      exact hdata (d := l.toDataLayout) _ hr rfl rfl (hreg _ _ hr).1 (hl.ofInput _ _ hr)
    | some p =>
      obtain ⟨l', h1, h2⟩ := hl.prim _ _ hp
      rw [hr] at h1; injection h1 with h1; subst h1
      obtain ⟨r, rfl⟩ := List.length_eq_one_iff.1 (hin _ 1 hr rfl)
      cases p <;> simp [Prim.Writes] at h2
      simp only [serialize, hp, writePrim]
      exact hn.assign _ _
  | @id _ l t hr =>
    obtain ⟨r, rfl⟩ := List.length_eq_one_iff.1 (hin _ 1 hr rfl)
    cases hp : c.prim ref with
    | none =>
      have hcl := hreg _ _ hr
      simp only [serialize, hp, hr, writeLayout]
      rw [intro_emit (env := .root [r]) hcl.1, intro_emit (env := .root [r]) hcl.1, hn.scope]
      exact ((hn.alloc _).emit _ _).assign _ _
    | some p =>
      obtain ⟨l', h1, h2⟩ := hl.prim _ _ hp
      rw [hr] at h1; injection h1 with h1; subst h1
      cases p <;> simp [Prim.Writes] at h2
      simp only [serialize, hp, writePrim]
      exact hn.assign _ _
  | product => obtain ⟨_, h⟩ := hlv; simp at h
  | unordered => obtain ⟨_, h⟩ := hlv; simp at h
  | ordered => obtain ⟨_, h⟩ := hlv; simp at h
  | sized => obtain ⟨_, h⟩ := hlv; simp at h
  | sum => obtain ⟨_, h⟩ := hlv; simp at h

/-- Derived serialization is `dehydrate`, up to the order of the quads. -/
theorem serialize_sim (c : SeCtx) (x : Xsd) (hl : SeLaws c) (ht : SeText c x) (hreg : c.reg.Closed)
    (hwt : c.reg.WellTyped) (hk : c.reg.DistinctKeys) (n : Nat)
    (ref : Term) (v : TypedValue Term) (hv : HasType c.reg ref v) (hdec : Decided c.reg v)
    (hid : AllIds (fun s => c.isIri s = true) v)
    (hpr : v.untype.Printable x) (g : Option IRes) (inputs : List IRes)
    (hin : ∀ l k, c.reg ref = some l → l.inputCount = some k → inputs.length = k) (Q : List (Quad IRes)) :
    Sim Q (serialize c n v g ref inputs)
      (Dehydrate.dehydrateWith ⟨c.reg, c.isIri, x⟩ n v.untype g ref inputs) := by
  induction n generalizing ref v g inputs Q with
  | zero => exact fun s s' _ => .fuel _ _
  | succ n ih =>
    intro s s' hn
    have hag : ∀ l, c.reg ref = some l → ∀ f ∈ l.formats, ∀ w, HasType c.reg f.layout w → Decided c.reg w →
        AllIds (fun s => c.isIri s = true) w → w.untype.Printable x → ∀ Q,
        AgreeSim Q (serialize c n) (Dehydrate.dehydrateWith ⟨c.reg, c.isIri, x⟩ n) f w := by
      intro l hl' f hf w hw hdw hidw hpw Q g ins hlen
      refine ih f.layout w hw hdw hidw hpw g ins ?_ Q
      intro l'' k hl'' hk''
      obtain ⟨l', h1, h2⟩ := hwt ref l hl' f hf
      rw [h1] at hl''
      injection hl'' with e
      subst e
      rw [hlen, h2 k hk'']
    have hde : ∀ l, c.reg ref = some l →
        Dehydrate.dehydrateWith ⟨c.reg, c.isIri, x⟩ (n + 1) v.untype g ref inputs s' =
          Dehydrate.layout ⟨c.reg, c.isIri, x⟩ (Dehydrate.dehydrateWith ⟨c.reg, c.isIri, x⟩ n) v.untype g ref inputs l s' := by
      intro l hr
      simp only [Dehydrate.dehydrateWith, hr]
      rw [if_neg]
      cases hcount : l.inputCount with
      | none => simp
      | some k => simp [hin l k hr hcount]
    have hroot : ∀ l k, c.reg ref = some l → l.inputCount = some k → (Env.root inputs).flat.length = k := fun l k h1 h2 =>
      hin l k h1 h2
    have hlit : (∃ lit, v = .literal lit) → HasType c.reg ref v →
        Res Q (serialize c (n + 1) v g ref inputs s)
          (Dehydrate.dehydrateWith ⟨c.reg, c.isIri, x⟩ (n + 1) v.untype g ref inputs s') := by
      intro hlv hv
      rw [← literal_agree c x hl ht hreg n ref v hlv hv hid hpr g inputs hin s']
      exact literal_sim c hl hreg n ref v hlv hv g inputs hin _ _ hn
    have hprim : ∀ l, c.reg ref = some l → (∀ d, l ≠ .number d) → (∀ d, l ≠ .textString d) → (∀ d, l ≠ .id d) →
        c.prim ref = none := by
      intro l hr k1 k2 k3
      cases hp : c.prim ref with
      | none => rfl
      | some p =>
        obtain ⟨l', h1, h2⟩ := hl.prim _ _ hp
        rw [hr] at h1; injection h1 with h1; subst h1
        cases p with
        | id => exact absurd h2 (k3 _)
        | string => exact absurd h2 (k2 _)
        | int => exact absurd h2 (k1 _)
    cases hv with
    | unit hr => exact hlit ⟨_, rfl⟩ (.unit hr)
    | boolean b hr => exact hlit ⟨_, rfl⟩ (.boolean b hr)
    | number q hr => exact hlit ⟨_, rfl⟩ (.number q hr)
    | textString t hr => exact hlit ⟨_, rfl⟩ (.textString t hr)
    | id t hr => exact hlit ⟨_, rfl⟩ (.id t hr)
    | @product _ l m hr h1 h2 h3 =>
      have hp := hprim _ hr (by simp) (by simp) (by simp)
      have hcl := hreg _ _ hr
      have hlen := hroot _ _ hr rfl
      rw [hde _ hr]
      simp only [serialize, hp, hr, writeLayout, Dehydrate.layout, TypedValue.untype]
      rw [intro_emit (by rw [hlen]; exact hcl.1), Dehydrate.intro_emit (by rw [hlen]; exact hcl.1), hn.scope, hn.fresh]
      rw [bind_pure_ok]
      · refine fields_sim (fields := l.fields) ?_ (hk _ _ hr) h2 ?_ l.fields m (.refl _) (fun _ h => h)
          (h1.nodup (hk _ _ hr)) (fun e he _ => he) h1 _ _ ((hn.alloc _).emit _ _)
        · intro e he
          rw [Dehydrate.length_flat_child, hlen]
          exact hcl.2 e he
        · intro k w f hkw hkf
          refine hag _ hr f.value ?_ w (h3 k w f hkw hkf) ?_ ?_ ?_ Q
          · simp only [Layout.formats, List.mem_map]; exact ⟨_, hkf, rfl⟩
          · cases hdec with
            | map h => exact h _ hkw
          · cases hid with
            | map h => exact h _ hkw
          · intro q hq
            refine hpr q (.map (k := k) (v := w.untype) ?_ hq)
            rw [TypedValue.untypeMap_eq]
            exact List.mem_map.2 ⟨_, hkw, rfl⟩
      · intro s'
        refine requireKeys_ok l.fields ?_ s'
        intro k f hkf hreq
        obtain ⟨w, hw⟩ := h2 k f hkf hreq
        exact ⟨w.untype, by rw [TypedValue.untypeMap_eq]; exact List.mem_map.2 ⟨_, hw, rfl⟩⟩
    | @unordered _ l vs hr h1 =>
      have hp := hprim _ hr (by simp) (by simp) (by simp)
      have hcl := hreg _ _ hr
      have hlen := hroot _ _ hr rfl
      rw [hde _ hr]
      simp only [serialize, hp, hr, writeLayout, Dehydrate.layout, TypedValue.untype]
      rw [intro_emit (by rw [hlen]; exact hcl.1), Dehydrate.intro_emit (by rw [hlen]; exact hcl.1), hn.scope, hn.fresh]
      refine items_sim (by rw [Dehydrate.length_flat_child, hlen]; exact hcl.2) vs ?_ _ _ ((hn.alloc _).emit _ _)
      intro w hw
      refine hag _ hr _ (by simp [Layout.formats]) w (h1 w hw) ?_ ?_ ?_ Q
      · cases hdec with
        | list h => exact h _ hw
      · cases hid with
        | list h => exact h _ hw
      · intro q hq
        refine hpr q (.list (v := w.untype) ?_ hq)
        rw [TypedValue.untypeList_eq]
        exact List.mem_map.2 ⟨_, hw, rfl⟩
    | @ordered _ l vs hr h1 =>
      have hp := hprim _ hr (by simp) (by simp) (by simp)
      have hcl := hreg _ _ hr
      have hlen := hroot _ _ hr rfl
      rw [hde _ hr]
      simp only [serialize, hp, hr, writeLayout, Dehydrate.layout, TypedValue.untype]
      rw [intro_emit (by rw [hlen]; exact hcl.1), Dehydrate.intro_emit (by rw [hlen]; exact hcl.1), hn.scope, hn.fresh]
      have hhead : l.head.Below (Env.child (.root inputs) (Dehydrate.freshList s'.fresh l.intro)).flat.length := by
        rw [Dehydrate.length_flat_child, hlen]; exact hcl.2.1
      rw [inst_eq hhead, Dehydrate.instPattern_eq hhead]
      rw [read_bind (a := Dehydrate.patInst _ l.head) rfl, read_bind (a := Dehydrate.patInst _ l.head) rfl]
      refine nodes_sim (by rw [Dehydrate.length_flat_child, hlen]; exact hcl.2.2.1)
        (by rw [Dehydrate.length_flat_child, hlen]; exact hcl.2.2.2) _ vs ?_ _ _ ((hn.alloc _).emit _ _)
      intro w hw
      refine hag _ hr _ (by simp [Layout.formats]) w (h1 w hw) ?_ ?_ ?_ Q
      · cases hdec with
        | list h => exact h _ hw
      · cases hid with
        | list h => exact h _ hw
      · intro q hq
        refine hpr q (.list (v := w.untype) ?_ hq)
        rw [TypedValue.untypeList_eq]
        exact List.mem_map.2 ⟨_, hw, rfl⟩
    | @sized _ l vs hr hle h1 =>
      have hp := hprim _ hr (by simp) (by simp) (by simp)
      have hcl := hreg _ _ hr
      have hlen := hroot _ _ hr rfl
      rw [hde _ hr]
      simp only [serialize, hp, hr, writeLayout, Dehydrate.layout, TypedValue.untype]
      rw [intro_emit (by rw [hlen]; exact hcl.1), Dehydrate.intro_emit (by rw [hlen]; exact hcl.1), hn.scope, hn.fresh]
      refine sized_sim l.items (fun i hi => by rw [Dehydrate.length_flat_child, hlen]; exact hcl.2 i hi) vs hle ?_ _ _
        ((hn.alloc _).emit _ _)
      rintro ⟨i, w⟩ hw
      have hwm := (List.of_mem_zip hw).2
      refine hag _ hr _ ?_ w (h1 _ hw) ?_ ?_ ?_ Q
      · simp only [Layout.formats, List.mem_map]; exact ⟨_, (List.of_mem_zip hw).1, rfl⟩
      · cases hdec with
        | list h => exact h _ hwm
      · cases hid with
        | list h => exact h _ hwm
      · intro q hq
        refine hpr q (.list (v := w.untype) ?_ hq)
        rw [TypedValue.untypeList_eq]
        exact List.mem_map.2 ⟨_, hwm, rfl⟩
    | @sum _ l i y w hr hy hw =>
      have hp := hprim _ hr (by simp) (by simp) (by simp)
      have hcl := hreg _ _ hr
      have hlen := hroot _ _ hr rfl
      have hother : ∀ j z, j ≠ i → l.variants[j]? = some z → z.intro = 0 ∧
          ∃ l', c.reg z.value.layout = some l' ∧ l'.rejects w.untype = true ∧ ∀ p, l' = .product p → p.intro = 0 := by
        cases hdec with
        | variant h _ => exact h l hr
      have hdw : Decided c.reg w := by
        cases hdec with
        | variant _ h => exact h
      have hidw : AllIds (fun s => c.isIri s = true) w := by
        cases hid with
        | variant h => exact h
      rw [hde _ hr]
      simp only [serialize, hp, hr, writeLayout, Dehydrate.layout, TypedValue.untype, hy]
      rw [intro_emit (by rw [hlen]; exact hcl.1), Dehydrate.intro_emit (by rw [hlen]; exact hcl.1), hn.scope, hn.fresh]
      have hn1 := (hn.alloc l.intro).emit (scope (Env.root inputs).flat l.intro s') l.dataset
      generalize emit (scope (Env.root inputs).flat l.intro s') l.dataset (alloc l.intro s) = t at hn1 ⊢
      generalize hts : emit (scope (Env.root inputs).flat l.intro s') l.dataset (alloc l.intro s') = t' at hn1 ⊢
      generalize henv : Env.child (.root inputs) (Dehydrate.freshList s'.fresh l.intro) = env
      have hel : env.flat.length = l.input + l.intro := by rw [← henv, Dehydrate.length_flat_child, hlen]
      have hcv : ∀ z ∈ l.variants, PatsBelow (env.flat.length + z.intro) z.dataset ∧
          z.value.Below (env.flat.length + z.intro) := by rw [hel]; exact hcl.2
      have hym := List.mem_of_getElem? hy
      rw [writeItem_eq (hcv y hym).1 (hcv y hym).2, hn1.scope]
      cases n with
      | zero =>
        cases hvs : l.variants with
        | nil => simp [hvs] at hy
        | cons z zs =>
          have hz : z ∈ l.variants := by simp [hvs]
          rw [Dehydrate.variants_cons (hcv z hz).1 (hcv z hz).2]
          exact .fuel _ _
      | succ n =>
        have hsplit : l.variants = l.variants.take i ++ y :: l.variants.drop (i + 1) := by
          obtain ⟨hi, rfl⟩ := List.getElem?_eq_some_iff.1 hy
          rw [List.getElem_cons_drop, List.take_append_drop]
        have hskip : ∀ z ∈ l.variants.take i ++ l.variants.drop (i + 1), z.intro = 0 ∧ ∀ ρ s, ∃ e,
            Dehydrate.call (Dehydrate.dehydrateWith ⟨c.reg, c.isIri, x⟩ (n + 1)) g z.value ρ w.untype s = (.err e, s) := by
          intro z hz
          have : ∃ j, j ≠ i ∧ l.variants[j]? = some z := by
            rcases List.mem_append.1 hz with hz | hz
            · obtain ⟨j, hj, rfl⟩ := List.mem_iff_getElem.1 hz
              simp only [List.length_take] at hj
              exact ⟨j, by omega, by rw [List.getElem_take, List.getElem?_eq_getElem]⟩
            · obtain ⟨j, hj, rfl⟩ := List.mem_iff_getElem.1 hz
              simp only [List.length_drop] at hj
              exact ⟨i + 1 + j, by omega, by rw [List.getElem_drop, List.getElem?_eq_getElem]⟩
          obtain ⟨j, hj, hjz⟩ := this
          obtain ⟨h0, l', hl', hrej, hpi⟩ := hother j z hj hjz
          exact ⟨h0, fun ρ s => rejects_err hl' hpi hrej s⟩
        have hsum : ∀ zs : List (Variant Term), (∀ z ∈ zs, z.intro = 0) → (zs.map Variant.intro).sum = 0 := by
          intro zs h
          induction zs with
          | nil => rfl
          | cons z zs ih =>
            rw [List.forall_mem_cons] at h
            rw [List.map_cons, List.sum_cons, h.1, ih h.2]
        have hA : ∀ z ∈ l.variants.take i, z ∈ l.variants := fun z h => List.mem_of_mem_take h
        have hB : ∀ z ∈ l.variants.drop (i + 1), z ∈ l.variants := fun z h => List.mem_of_mem_drop h
        rw [hsplit, Dehydrate.variants_skip (env := env) (fun z hz => hcv z (hA z hz))
            (fun z hz => (hskip z (List.mem_append_left _ hz)).2),
          hsum _ (fun z hz => (hskip z (List.mem_append_left _ hz)).1)]
        change Res Q _ (Dehydrate.variants _ g env w.untype (y :: l.variants.drop (i + 1)) none t')
        rw [Dehydrate.variants_cons (hcv y hym).1 (hcv y hym).2]
        have hres := call_sim (hag _ hr y.value (by
            simp only [Layout.formats, List.mem_map]; exact ⟨_, hym, rfl⟩) w hw hdw hidw hpr
            (Q ++ y.dataset.map (Dehydrate.quadInst (scope env.flat y.intro t')))) g
          (scope env.flat y.intro t') _ _ ((hn1.alloc y.intro).emit_left (scope env.flat y.intro t') y.dataset)
        generalize call (serialize c (n + 1)) g y.value (scope env.flat y.intro t') w
          (emit (scope env.flat y.intro t') y.dataset (alloc y.intro t)) = a at hres ⊢
        generalize Dehydrate.call (Dehydrate.dehydrateWith ⟨c.reg, c.isIri, x⟩ (n + 1)) g y.value
          (scope env.flat y.intro t') w.untype (alloc y.intro t') = b at hres ⊢
        cases hres with
        | fuel => exact .fuel _ _
        | @ok _ u u' hu =>
          simp only
          have := Dehydrate.variants_skip (rec := Dehydrate.dehydrateWith ⟨c.reg, c.isIri, x⟩ (n + 1)) (graph := g)
            (env := env) (v := w.untype) (ys := []) (fun z hz => hcv z (hB z hz))
            (fun z hz => (hskip z (List.mem_append_right _ hz)).2)
            (some (y.dataset.map (Dehydrate.quadInst (scope env.flat y.intro t')))) u'
          rw [List.append_nil, hsum _ (fun z hz => (hskip z (List.mem_append_right _ hz)).1)] at this
          rw [this]
          exact .ok _ hu.catch_up

end Derived

end Verif
