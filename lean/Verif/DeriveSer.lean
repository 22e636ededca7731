import Verif.DeriveSpec
import Verif.DehydrateClosed

/-! # Derived serialization: agreement with `dehydrate`, and success -/

set_option linter.unusedSectionVars false
set_option linter.unusedSimpArgs false

namespace Verif

namespace Derived

/-! ## Patterns -/

theorem inst_eq {env : Env IRes} {p : Pattern Term} (h : p.Below env.flat.length) :
    instPattern env p = .ok (Dehydrate.patInst env.flat p) := by
  have := Dehydrate.instPattern_eq h
  cases p with
  | res t => rfl
  | var x =>
    simp only [Dehydrate.instPattern] at this
    simp only [instPattern]
    split at this <;> simp_all

theorem insts_eq {env : Env IRes} {ps : List (Pattern Term)} (h : ∀ p ∈ ps, p.Below env.flat.length) :
    Out.mapM' (instPattern env) ps = .ok (ps.map (Dehydrate.patInst env.flat)) := by
  induction ps with
  | nil => rfl
  | cons p ps ih =>
    rw [List.forall_mem_cons] at h
    rw [Out.mapM', inst_eq h.1, Out.bind_ok, ih h.2]
    rfl

theorem instQuad_eq {env : Env IRes} {q : QuadPat Term} (h : q.s.Below env.flat.length ∧ q.p.Below env.flat.length ∧
    q.o.Below env.flat.length ∧ ∀ g, q.g = some g → g.Below env.flat.length) :
    instQuad env q = .ok (Dehydrate.quadInst env.flat q) := by
  obtain ⟨h1, h2, h3, h4⟩ := h
  unfold instQuad
  rw [inst_eq h1, Out.bind_ok, inst_eq h2, Out.bind_ok, inst_eq h3, Out.bind_ok]
  cases hg : q.g with
  | none => simp only [Dehydrate.quadInst, hg, Option.map_none]
  | some g => simp only [inst_eq (h4 g hg), Out.bind_ok, Dehydrate.quadInst, hg, Option.map_some]

theorem instDataset_eq {env : Env IRes} {qs : List (QuadPat Term)} (h : PatsBelow env.flat.length qs) (s : DeState) :
    instDataset env qs s = (.ok (), Dehydrate.emit env.flat qs s) := by
  induction qs generalizing s with
  | nil => rfl
  | cons p ps ih =>
    rw [Dehydrate.PatsBelow.cons] at h
    unfold instDataset
    rw [DeM.bind_ok (s' := s) (a := Dehydrate.quadInst env.flat p) (by simp [DeM.read, instQuad_eq h.1])]
    exact ih h.2 _

theorem intro_emit {β : Type} {env : Env IRes} {k : Nat} {qs : List (QuadPat Term)}
    (h1 : PatsBelow (env.flat.length + k) qs) (f : Env IRes → DeM β) (s : DeState) :
    ((Dehydrate.intro env k).bind fun e => (instDataset e qs).bind fun _ => f e) s =
      f (.child env (Dehydrate.freshList s.fresh k)) (Dehydrate.emit (Dehydrate.scope env.flat k s) qs (Dehydrate.alloc k s)) := by
  rw [Dehydrate.intro_bind, DeM.bind_ok (instDataset_eq (by rw [Dehydrate.length_flat_child]; exact h1) _)]
  rfl

/-- The recursive call of a sub-value. -/
def call (rec : SRec) (graph : Option IRes) (fmt : ValueFormat Term) (ρ : List IRes) (v : TypedValue Term) : DeM Unit :=
  rec v (Dehydrate.graphInst ρ graph fmt.graph) fmt.layout (fmt.input.map (Dehydrate.patInst ρ))

theorem writeSub_eq {rec : SRec} {graph : Option IRes} {fmt : ValueFormat Term} {env : Env IRes} {v : TypedValue Term}
    (h : fmt.Below env.flat.length) : writeSub rec graph fmt env v = call rec graph fmt env.flat v := by
  funext s
  unfold writeSub
  rw [DeM.bind_ok (s' := s) (a := fmt.input.map (Dehydrate.patInst env.flat)) (by simp [DeM.read, insts_eq h.1])]
  refine DeM.bind_ok (s' := s) (a := Dehydrate.graphInst env.flat graph fmt.graph) ?_
  simp only [DeM.read, Prod.mk.injEq, and_true]
  rcases hg : fmt.graph with _ | _ | g
  · rfl
  · rfl
  · simp only [inst_eq (h.2 g hg), Out.map, Dehydrate.graphInst]

theorem writeItem_eq {rec : SRec} {graph : Option IRes} {env : Env IRes} {k : Nat}
    {qs : List (QuadPat Term)} {fmt : ValueFormat Term} {v : TypedValue Term} (h1 : PatsBelow (env.flat.length + k) qs)
    (h2 : fmt.Below (env.flat.length + k)) (s : DeState) :
    writeItem rec graph env k qs fmt v s =
      call rec graph fmt (Dehydrate.scope env.flat k s) v
        (Dehydrate.emit (Dehydrate.scope env.flat k s) qs (Dehydrate.alloc k s)) := by
  unfold writeItem
  rw [intro_emit h1, writeSub_eq (by rw [Dehydrate.length_flat_child]; exact h2)]
  rfl

theorem writeItem_bind {β : Type} {rec : SRec} {graph : Option IRes} {env : Env IRes} {k : Nat}
    {qs : List (QuadPat Term)} {fmt : ValueFormat Term} {v : TypedValue Term} (h1 : PatsBelow (env.flat.length + k) qs)
    (h2 : fmt.Below (env.flat.length + k)) (f : Unit → DeM β) (s : DeState) :
    (writeItem rec graph env k qs fmt v).bind f s =
      (call rec graph fmt (Dehydrate.scope env.flat k s) v).bind f
        (Dehydrate.emit (Dehydrate.scope env.flat k s) qs (Dehydrate.alloc k s)) := by
  unfold DeM.bind
  rw [writeItem_eq h1 h2]

/-! ## Agreement -/

/-- The calls of a format agree. -/
def Agree (rec : SRec) (rec' : Dehydrate.Rec) (fmt : ValueFormat Term) (v : TypedValue Term) : Prop :=
  ∀ g ins, ins.length = fmt.input.length → ∀ s, rec v g fmt.layout ins s = rec' v.untype g fmt.layout ins s

theorem call_agree {rec : SRec} {rec' : Dehydrate.Rec} {fmt : ValueFormat Term} {v : TypedValue Term}
    (h : Agree rec rec' fmt v) (g : Option IRes) (ρ : List IRes) :
    call rec g fmt ρ v = Dehydrate.call rec' g fmt ρ v.untype := by
  funext s
  exact h _ _ (by simp) s

theorem items_agree {rec : SRec} {rec' : Dehydrate.Rec} {g : Option IRes} {env : Env IRes} {item : ItemLayout Term}
    (hc : item.Closed (env.flat.length + item.intro)) (vs : List (TypedValue Term))
    (h : ∀ v ∈ vs, Agree rec rec' item.value v) (s : DeState) :
    writeItems rec g env item vs s = Dehydrate.items rec' g env item (TypedValue.untypeList vs) s := by
  induction vs generalizing s with
  | nil => rfl
  | cons v vs ih =>
    rw [List.forall_mem_cons] at h
    rw [TypedValue.untypeList, Dehydrate.items_cons hc, writeItems, writeItem_bind hc.1 hc.2, call_agree h.1]
    have : (fun (_ : Unit) => writeItems rec g env item vs) =
        fun (_ : Unit) => Dehydrate.items rec' g env item (TypedValue.untypeList vs) := by
      funext _ s'; exact ih h.2 s'
    rw [this]

theorem sized_agree {rec : SRec} {rec' : Dehydrate.Rec} {g : Option IRes} {env : Env IRes} (is : List (ItemLayout Term))
    (hc : ∀ item ∈ is, item.Closed (env.flat.length + item.intro)) (vs : List (TypedValue Term))
    (hlen : vs.length = is.length)
    (h : ∀ e ∈ is.zip vs, Agree rec rec' e.1.value e.2) (s : DeState) :
    writeSized rec g env vs is s = Dehydrate.sizedItems rec' g env (TypedValue.untypeList vs) is s := by
  induction is generalizing vs s with
  | nil =>
    cases vs with
    | nil => rfl
    | cons => simp at hlen
  | cons item is ih =>
    cases vs with
    | nil => simp at hlen
    | cons v vs =>
      simp only [List.zip_cons_cons, List.forall_mem_cons] at h hc
      rw [TypedValue.untypeList, Dehydrate.sizedItems_cons hc.1, writeSized, writeItem_bind hc.1.1 hc.1.2,
        call_agree h.1]
      have : (fun (_ : Unit) => writeSized rec g env vs is) =
          fun (_ : Unit) => Dehydrate.sizedItems rec' g env (TypedValue.untypeList vs) is := by
        funext _ s'; exact ih hc.2 vs (by simpa using hlen) h.2 s'
      rw [this]

theorem untypeList_isEmpty (vs : List (TypedValue Term)) : (TypedValue.untypeList vs).isEmpty = vs.isEmpty := by
  cases vs <;> simp [TypedValue.untypeList]

theorem nodes_agree {rec : SRec} {rec' : Dehydrate.Rec} {g : Option IRes} {env : Env IRes} {node : ItemLayout Term}
    {tail : Pattern Term} (ht : tail.Below env.flat.length)
    (hc : node.Closed (env.flat.length + 2 + node.intro)) (head : IRes) (vs : List (TypedValue Term))
    (h : ∀ v ∈ vs, Agree rec rec' node.value v) (s : DeState) :
    writeNodes rec g env node tail head vs s = Dehydrate.nodes rec' g env node tail head (TypedValue.untypeList vs) s := by
  induction vs generalizing s head with
  | nil => rfl
  | cons v vs ih =>
    rw [List.forall_mem_cons] at h
    have hl : ∀ next : IRes, (env.bind [head, next]).flat.length = env.flat.length + 2 := by
      intro next; simp [Env.bind, Env.flat]
    have e1 : (if vs.isEmpty then DeM.read fun _ => instPattern env tail else Dehydrate.newResource) =
        (if (TypedValue.untypeList vs).isEmpty then DeM.read fun _ => Dehydrate.instPattern env tail
          else Dehydrate.newResource) := by
      rw [untypeList_isEmpty, inst_eq ht, Dehydrate.instPattern_eq ht]
    rw [TypedValue.untypeList, writeNodes, Dehydrate.nodes, e1]
    congr 1
    funext next s'
    rw [writeItem_bind (by rw [hl]; exact hc.1) (by rw [hl]; exact hc.2), call_agree h.1,
      Dehydrate.intro_emit_call (by rw [hl]; exact hc.1) (by rw [hl]; exact hc.2)]
    have : (fun (_ : Unit) => writeNodes rec g env node tail next vs) =
        fun (_ : Unit) => Dehydrate.nodes rec' g env node tail next (TypedValue.untypeList vs) := by
      funext _ s'; exact ih next h.2 s'
    rw [this]

theorem find_of_nodup {α : Type} {m : List (Value × α)} (h : (m.map Prod.fst).Nodup) {e : Value × α} (he : e ∈ m) :
    m.find? (fun e' => e'.1 == e.1) = some e := by
  induction m with
  | nil => simp at he
  | cons a m ih =>
    simp only [List.map_cons, List.nodup_cons] at h
    by_cases hk : a.1 = e.1
    · rcases List.mem_cons.1 he with rfl | he
      · simp
      · exact absurd (List.mem_map_of_mem (f := Prod.fst) he) (hk ▸ h.1)
    · rw [List.find?_cons_of_neg (by simpa using hk)]
      rcases List.mem_cons.1 he with rfl | he
      · exact absurd rfl hk
      · exact ih h.2 he

theorem find_none {α : Type} {m : List (Value × α)} {k : Value} (h : k ∉ m.map Prod.fst) :
    m.find? (fun e' => e'.1 == k) = none := by
  rw [List.find?_eq_none]
  rintro e he hk
  exact h (List.mem_map.2 ⟨e, he, by simpa using hk⟩)

theorem fields_agree {rec : SRec} {rec' : Dehydrate.Rec} {g : Option IRes} {env : Env IRes}
    {fields : List (Value × Field Term)} {m : List (Value × TypedValue Term)}
    (hc : ∀ e ∈ fields, PatsBelow (env.flat.length + e.2.intro) e.2.dataset ∧
      e.2.value.Below (env.flat.length + e.2.intro))
    (hnd : (fields.map Prod.fst).Nodup)
    (hreq : ∀ k f, (k, f) ∈ fields → f.required = true → ∃ v, (k, v) ∈ m)
    (h : ∀ k v f, (k, v) ∈ m → (k, f) ∈ fields → Agree rec rec' f.value v)
    (fs : List (Value × Field Term)) (ms : List (Value × TypedValue Term))
    (hfs : fs.Sublist fields) (hms : ∀ e ∈ ms, e ∈ m) (hmnd : (m.map Prod.fst).Nodup)
    (hrest : ∀ e ∈ m, e.1 ∈ fs.map Prod.fst → e ∈ ms)
    (hsub : (ms.map Prod.fst).Sublist (fs.map Prod.fst)) (s : DeState) :
    writeFields rec g env m fs s = Dehydrate.entries rec' g env fields (TypedValue.untypeMap ms) s := by
  induction fs generalizing ms s with
  | nil =>
    have : ms = [] := by simpa using hsub
    subst this
    rfl
  | cons e fs ih =>
    obtain ⟨k, f⟩ := e
    have hin : (k, f) ∈ fields := hfs.subset (by simp)
    have hnd' : ((k, f) :: fs |>.map Prod.fst).Nodup := (hfs.map Prod.fst).nodup hnd
    simp only [List.map_cons, List.nodup_cons] at hnd'
    have hfs' : fs.Sublist fields := (List.sublist_cons_self _ _).trans hfs
    by_cases hk : ∃ v, (k, v) ∈ ms
    · obtain ⟨v, hv⟩ := hk
      have hfind : m.find? (fun e => e.1 == k) = some (k, v) := find_of_nodup hmnd (hms _ hv)
      -- the entry is the first one
      obtain ⟨e', ms', rfl⟩ : ∃ e' ms', ms = e' :: ms' := by
        cases ms with
        | nil => simp at hv
        | cons e' ms' => exact ⟨e', ms', rfl⟩
      have he' : e' = (k, v) := by
        rcases List.mem_cons.1 hv with h' | h'
        · exact h'.symm
        · exfalso
          simp only [List.map_cons] at hsub
          cases hsub with
          | cons _ hs =>
            exact hnd'.1 (hs.subset (List.mem_cons_of_mem _ (List.mem_map_of_mem (f := Prod.fst) h')))
          | cons_cons _ hs => exact hnd'.1 (hs.subset (List.mem_map.2 ⟨_, h', rfl⟩))
      subst he'
      have hsub' : (ms'.map Prod.fst).Sublist (fs.map Prod.fst) := by
        simp only [List.map_cons] at hsub
        cases hsub with
        | cons _ hs => exact (List.sublist_cons_self _ _).trans hs
        | cons_cons _ hs => exact hs
      have hlk : Dehydrate.lookup k fields = some f := by
        have := find_of_nodup hnd hin
        simp [Dehydrate.lookup, this]
      rw [TypedValue.untypeMap, Dehydrate.entries_cons hlk (hc _ hin).1 (hc _ hin).2, writeFields, hfind]
      simp only
      rw [writeItem_bind (hc _ hin).1 (hc _ hin).2, call_agree (h k v f (hms _ (by simp)) hin)]
      have : (fun (_ : Unit) => writeFields rec g env m fs) =
          fun (_ : Unit) => Dehydrate.entries rec' g env fields (TypedValue.untypeMap ms') := by
        funext _ s'
        refine ih ms' hfs' (fun e he => hms e (by simp [he])) ?_ hsub' s'
        intro e he hek
        rcases List.mem_cons.1 (hrest e he (by simp [hek])) with rfl | h'
        · exact absurd hek hnd'.1
        · exact h'
      rw [this]
    · have hnk : k ∉ m.map Prod.fst := by
        intro hmem
        obtain ⟨⟨k', v⟩, he, rfl⟩ := List.mem_map.1 hmem
        exact hk ⟨v, hrest _ he (by simp)⟩
      have hnreq : f.required = false := by
        cases hr : f.required with
        | false => rfl
        | true =>
          obtain ⟨v, hv⟩ := hreq k f hin hr
          exact absurd (List.mem_map_of_mem (f := Prod.fst) hv) hnk
      rw [writeFields, find_none hnk]
      simp only [hnreq, Bool.false_eq_true, if_false]
      refine ih ms hfs' hms (fun e he hek => hrest e he (by simp [hek])) ?_ s
      have hkms : k ∉ ms.map Prod.fst := by
        intro hmem
        obtain ⟨⟨k', v⟩, he, rfl⟩ := List.mem_map.1 hmem
        exact hk ⟨v, he⟩
      simp only [List.map_cons] at hsub
      generalize hks : ms.map Prod.fst = ks at hsub hkms
      cases hsub with
      | cons _ hs => exact hs
      | cons_cons _ hs => simp at hkms

theorem requireKeys_ok {ref : Term} {m : List (Value × Value)} (fs : List (Value × Field Term))
    (h : ∀ k f, (k, f) ∈ fs → f.required = true → ∃ v, (k, v) ∈ m) (s : DeState) :
    Dehydrate.requireKeys ref m fs s = (.ok (), s) := by
  induction fs with
  | nil => rfl
  | cons e fs ih =>
    obtain ⟨k, f⟩ := e
    unfold Dehydrate.requireKeys
    rw [if_neg]
    · exact ih fun k f hkf => h k f (by simp [hkf])
    · cases hr : f.required with
      | false => simp
      | true =>
        obtain ⟨v, hv⟩ := h k f (by simp) hr
        have : m.any (fun e => e.1 == k) = true := List.any_eq_true.2 ⟨_, hv, by simp⟩
        simp [this]

theorem bind_pure_ok {x : DeM Unit} {f : Unit → DeM Unit} (h : ∀ s, f () s = (.ok (), s)) (s : DeState) :
    x.bind f s = x s := by
  unfold DeM.bind
  split
  · rename_i a s' e; rw [e]; exact h s'
  all_goals rename_i e; rw [e]

theorem read_bind {α β : Type} {f : DeState → Out DeError α} {g : α → DeM β} {s : DeState} {a : α} (h : f s = .ok a) :
    (DeM.read f).bind g s = g a s := DeM.bind_ok (by rw [DeM.read, h])

theorem target_eq {inputs : List IRes} {k : Nat} {s : DeState} {p : Pattern Term} (h1 : inputs.length = 1)
    (hp : p = .var 0 ∨ ∃ t, p = .res t) :
    target inputs p = .ok (Dehydrate.patInst (Dehydrate.scope inputs k s) p) := by
  obtain ⟨r, rfl⟩ := List.length_eq_one_iff.1 h1
  rcases hp with rfl | ⟨t, rfl⟩
  · rfl
  · rfl

theorem writeData_eq {c : SeCtx} {inputs : List IRes} {l : DataLayout Term} (h1 : inputs.length = 1)
    (hc : PatsBelow (1 + l.intro) l.dataset) (hp : l.resource = .var 0 ∨ ∃ t, l.resource = .res t) {i : String}
    (hd : l.datatype = .iri i) (lit : TypedLiteral Term) (s : DeState) :
    writeData c inputs l lit s =
      Dehydrate.assign (Dehydrate.patInst (Dehydrate.scope inputs l.intro s) l.resource) (.literal ⟨c.text lit, .any i⟩)
        (Dehydrate.emit (Dehydrate.scope inputs l.intro s) l.dataset (Dehydrate.alloc l.intro s)) := by
  unfold writeData
  rw [intro_emit (env := .root inputs) (by change PatsBelow (inputs.length + _) _; rw [h1]; exact hc)]
  rw [hd, read_bind (a := i) rfl, read_bind (target_eq (k := l.intro) (s := s) h1 hp)]
  rfl

theorem data_agree {c : SeCtx} {inputs : List IRes} {l : DataLayout Term} (h1 : inputs.length = 1)
    (hc : PatsBelow (1 + l.intro) l.dataset ∧ l.resource.Below (1 + l.intro))
    (hp : l.resource = .var 0 ∨ ∃ t, l.resource = .res t) {i : String}
    (hd : l.datatype = .iri i) (lit : TypedLiteral Term) {f : List String → Out DeError RdfLit}
    (hf : ∀ is, f (i :: is) = .ok ⟨c.text lit, .any i⟩) (s : DeState) :
    writeData c inputs l lit s = Dehydrate.data inputs l f s := by
  rw [writeData_eq h1 hc.1 hp hd, Dehydrate.data_eq (by rw [h1]; exact hc.1) (by rw [h1]; exact hc.2)]
  rw [read_bind]
  rw [hd]
  exact hf _

/-- Derived serialization of a literal is `dehydrate`. -/
theorem literal_agree (c : SeCtx) (x : Xsd) (hl : SeLaws c) (ht : SeText c x) (hreg : c.reg.Closed) (n : Nat)
    (ref : Term) (v : TypedValue Term) (hlv : ∃ lit, v = .literal lit) (hv : HasType c.reg ref v)
    (hid : AllIds (fun s => c.isIri s = true) v)
    (hpr : v.untype.Printable x) (g : Option IRes) (inputs : List IRes)
    (hin : ∀ l k, c.reg ref = some l → l.inputCount = some k → inputs.length = k) (s : DeState) :
    serialize c (n + 1) v g ref inputs s =
      Dehydrate.dehydrateWith ⟨c.reg, c.isIri, x⟩ (n + 1) v.untype g ref inputs s := by
  have hde : ∀ l, c.reg ref = some l →
      Dehydrate.dehydrateWith ⟨c.reg, c.isIri, x⟩ (n + 1) v.untype g ref inputs s =
        Dehydrate.layout ⟨c.reg, c.isIri, x⟩ (Dehydrate.dehydrateWith ⟨c.reg, c.isIri, x⟩ n) v.untype g ref inputs l s := by
    intro l hr
    simp only [Dehydrate.dehydrateWith, hr]
    rw [if_neg]
    cases hcount : l.inputCount with
    | none => simp
    | some k => simp [hin l k hr hcount]
  have hlit : ∀ {d : DataLayout Term} {l : Layout Term} {lit : TypedLiteral Term} {f : List String → Out DeError RdfLit},
      c.reg ref = some l → l.inputCount = some 1 → l.datatype? = some d.datatype →
      (PatsBelow (1 + d.intro) d.dataset ∧ d.resource.Below (1 + d.intro)) →
      (d.resource = .var 0 ∨ ∃ t, d.resource = .res t) →
      (∀ i, d.datatype = .iri i → ∀ is, f (i :: is) = .ok ⟨c.text lit, .any i⟩) →
      writeData c inputs d lit s = Dehydrate.data inputs d f s := by
    intro d l lit f hr hcount hd hcl hres hf
    obtain ⟨i, hi⟩ := hl.datatype _ _ _ hr hd
    exact data_agree (hin l 1 hr hcount) hcl hres hi lit (hf i hi) s
  have hroot : ∀ l k, c.reg ref = some l → l.inputCount = some k → (Env.root inputs).flat.length = k := fun l k h1 h2 =>
    hin l k h1 h2
  cases hv with
  | @unit _ l hr =>
    have hp : c.prim ref = none := by
      cases hp : c.prim ref with
      | none => rfl
      | some p =>
        obtain ⟨l', h1, h2⟩ := hl.prim _ _ hp
        rw [hr] at h1; injection h1 with h1; subst h1
        cases p <;> simp [Prim.Writes] at h2
    rw [hde _ hr]
    have hb : PatsBelow ((Env.root inputs).flat.length + l.intro) l.dataset := by
      rw [hroot _ 1 hr rfl]; exact hreg _ _ hr
    simp only [serialize, hp, hr, writeLayout, Dehydrate.layout]
    rw [if_pos (show (TypedValue.literal (TypedLiteral.unit l.const ref)).untype = l.const from rfl), Dehydrate.intro_bind, Dehydrate.intro_bind, instDataset_eq, Dehydrate.instDataset_eq]
    · rw [Dehydrate.length_flat_child]; exact hb
    · rw [Dehydrate.length_flat_child]; exact hb
  | @boolean _ l b hr =>
    have hp : c.prim ref = none := by
      cases hp : c.prim ref with
      | none => rfl
      | some p =>
        obtain ⟨l', h1, h2⟩ := hl.prim _ _ hp
        rw [hr] at h1; injection h1 with h1; subst h1
        cases p <;> simp [Prim.Writes] at h2
    rw [hde _ hr]
    simp only [serialize, hp, hr, writeLayout, Dehydrate.layout, TypedValue.untype, TypedLiteral.untype]
    refine hlit hr rfl rfl (hreg _ _ hr) (hl.ofInput _ _ hr) fun i hi is => ?_
    have := ht.boolType _ _ hr
    rw [hi] at this
    injection this with this
    subst this
    simp [Dehydrate.booleanLit, ht.boolean _ _ _ hr]
  | @number _ l q hr =>
    obtain ⟨i, hi⟩ := hl.datatype _ _ _ hr rfl
    have hi : l.datatype = .iri i := hi
    obtain ⟨text, htext⟩ := hpr q (.here q)
    have hf : ∀ i', l.datatype = .iri i' → ∀ is, Dehydrate.numberLit ⟨c.reg, c.isIri, x⟩ q (i' :: is) =
        .ok ⟨c.text (.number q ref), .any i'⟩ := by
      intro i' hi' is
      have := ht.numType _ _ _ hr hi'
      simp [Dehydrate.numberLit, this, htext, ht.number _ _ _ _ hr htext]
    rw [hde _ hr]
    cases hp : c.prim ref with
    | none =>
      simp only [serialize, hp, hr, writeLayout, Dehydrate.layout, TypedValue.untype, TypedLiteral.untype]
      exact hlit hr rfl rfl (hreg _ _ hr) (hl.ofInput _ _ hr) hf
    | some p =>
      obtain ⟨l', h1, h2⟩ := hl.prim _ _ hp
      rw [hr] at h1; injection h1 with h1; subst h1
      cases p with
      | id => simp [Prim.Writes] at h2
      | string => simp [Prim.Writes] at h2
      | int dt lo hi =>
        simp only [Prim.Writes, Layout.number.injEq] at h2
        subst h2
        obtain ⟨r, rfl⟩ := List.length_eq_one_iff.1 (hin _ 1 hr rfl)
        simp only [serialize, hp, writePrim, Dehydrate.layout, TypedValue.untype, TypedLiteral.untype]
        rw [← hlit hr rfl rfl (hreg _ _ hr) (hl.ofInput _ _ hr) hf,
          writeData_eq (i := dt) rfl (hreg _ _ hr).1 (hl.ofInput _ _ hr) rfl]
        rfl
  | @textString _ l t hr =>
    have hf : ∀ i', l.datatype = .iri i' → ∀ is, Dehydrate.textLit t (i' :: is) =
        .ok ⟨c.text (.textString t ref), .any i'⟩ := by
      intro i' hi' is
      simp [Dehydrate.textLit, ht.text _ _ t hr]
    rw [hde _ hr]
    cases hp : c.prim ref with
    | none =>
      simp only [serialize, hp, hr, writeLayout, Dehydrate.layout, TypedValue.untype, TypedLiteral.untype]
      exact hlit (d := l.toDataLayout) hr rfl rfl (hreg _ _ hr) (hl.ofInput _ _ hr) hf
    | some p =>
      obtain ⟨l', h1, h2⟩ := hl.prim _ _ hp
      rw [hr] at h1; injection h1 with h1; subst h1
      cases p with
      | id => simp [Prim.Writes] at h2
      | int => simp [Prim.Writes] at h2
      | string =>
        simp only [Prim.Writes, Layout.textString.injEq] at h2
        subst h2
        obtain ⟨r, rfl⟩ := List.length_eq_one_iff.1 (hin _ 1 hr rfl)
        simp only [serialize, hp, writePrim, Dehydrate.layout, TypedValue.untype, TypedLiteral.untype]
        rw [← hlit (d := plainData (.iri xsdString)) hr rfl rfl (hreg _ _ hr) (hl.ofInput _ _ hr) hf,
          writeData_eq (i := xsdString) rfl (hreg _ _ hr).1 (hl.ofInput _ _ hr) rfl, ht.text _ _ t hr]
        rfl
  | @id _ l t hr =>
    have hiri : c.isIri t = true := by
      cases hid with
      | literal _ h => exact h t ref rfl
    have h1 := hin _ 1 hr rfl
    have hcl := hreg _ _ hr
    have hres : l.resource = .var 0 := hl.ofInput _ _ hr
    obtain ⟨r, rfl⟩ := List.length_eq_one_iff.1 h1
    have hde' := hde _ hr
    have hident : Dehydrate.ident ⟨c.reg, c.isIri, x⟩ [r] l t s =
        Dehydrate.assign r (.iri t) (Dehydrate.emit (Dehydrate.scope [r] l.intro s) l.dataset (Dehydrate.alloc l.intro s)) := by
      rw [Dehydrate.ident_eq (inputs := [r]) hcl.1 hcl.2]
      simp only [hiri, if_true, hres]
      rfl
    rw [hde']
    cases hp : c.prim ref with
    | none =>
      simp only [serialize, hp, hr, writeLayout, Dehydrate.layout, TypedValue.untype, TypedLiteral.untype]
      rw [hident, intro_emit (env := .root [r]) hcl.1]
      simp only [DeM.read, List.getElem?_cons_zero, Out.ofOption, DeM.bind, idTerm, hiri, if_true]
      rfl
    | some p =>
      obtain ⟨l', h1, h2⟩ := hl.prim _ _ hp
      rw [hr] at h1; injection h1 with h1; subst h1
      cases p with
      | string => simp [Prim.Writes] at h2
      | int => simp [Prim.Writes] at h2
      | id =>
        simp only [Prim.Writes, Layout.id.injEq] at h2
        subst h2
        simp only [serialize, hp, writePrim, Dehydrate.layout, TypedValue.untype, TypedLiteral.untype]
        rw [hident]
        simp only [idTerm, hiri, if_true]
        rfl
  | product => obtain ⟨_, h⟩ := hlv; simp at h
  | unordered => obtain ⟨_, h⟩ := hlv; simp at h
  | ordered => obtain ⟨_, h⟩ := hlv; simp at h
  | sized => obtain ⟨_, h⟩ := hlv; simp at h
  | sum => obtain ⟨_, h⟩ := hlv; simp at h

/-- Derived serialization of a value, without sums, is `dehydrate`. -/
theorem serialize_agree (c : SeCtx) (x : Xsd) (hl : SeLaws c) (ht : SeText c x) (hreg : c.reg.Closed)
    (hwt : c.reg.WellTyped) (hk : c.reg.DistinctKeys) (hns : ∀ ref l, c.reg ref ≠ some (.sum l)) (n : Nat)
    (ref : Term) (v : TypedValue Term) (hv : HasType c.reg ref v) (hid : AllIds (fun s => c.isIri s = true) v)
    (hpr : v.untype.Printable x) (g : Option IRes) (inputs : List IRes)
    (hin : ∀ l k, c.reg ref = some l → l.inputCount = some k → inputs.length = k) (s : DeState) :
    serialize c n v g ref inputs s = Dehydrate.dehydrateWith ⟨c.reg, c.isIri, x⟩ n v.untype g ref inputs s := by
  induction n generalizing ref v g inputs s with
  | zero => rfl
  | succ n ih =>
    have hag : ∀ l, c.reg ref = some l → ∀ f ∈ l.formats, ∀ w, HasType c.reg f.layout w →
        AllIds (fun s => c.isIri s = true) w → w.untype.Printable x →
        Agree (serialize c n) (Dehydrate.dehydrateWith ⟨c.reg, c.isIri, x⟩ n) f w := by
      intro l hl' f hf w hw hidw hpw g ins hlen s
      refine ih f.layout w hw hidw hpw g ins ?_ s
      intro l'' k hl'' hk''
      obtain ⟨l', h1, h2⟩ := hwt ref l hl' f hf
      rw [h1] at hl''
      injection hl'' with e
      subst e
      rw [hlen, h2 k hk'']
    have hde : ∀ l, c.reg ref = some l →
        Dehydrate.dehydrateWith ⟨c.reg, c.isIri, x⟩ (n + 1) v.untype g ref inputs s =
          Dehydrate.layout ⟨c.reg, c.isIri, x⟩ (Dehydrate.dehydrateWith ⟨c.reg, c.isIri, x⟩ n) v.untype g ref inputs l s := by
      intro l hr
      simp only [Dehydrate.dehydrateWith, hr]
      rw [if_neg]
      cases hcount : l.inputCount with
      | none => simp
      | some k => simp [hin l k hr hcount]
    have hroot : ∀ l k, c.reg ref = some l → l.inputCount = some k → (Env.root inputs).flat.length = k := fun l k h1 h2 =>
      hin l k h1 h2
    cases hv with
    | @unit _ l hr => exact literal_agree c x hl ht hreg n ref _ ⟨_, rfl⟩ (.unit hr) hid hpr g inputs hin s
    | @boolean _ l b hr => exact literal_agree c x hl ht hreg n ref _ ⟨_, rfl⟩ (.boolean b hr) hid hpr g inputs hin s
    | @number _ l q hr => exact literal_agree c x hl ht hreg n ref _ ⟨_, rfl⟩ (.number q hr) hid hpr g inputs hin s
    | @textString _ l t hr => exact literal_agree c x hl ht hreg n ref _ ⟨_, rfl⟩ (.textString t hr) hid hpr g inputs hin s
    | @id _ l t hr => exact literal_agree c x hl ht hreg n ref _ ⟨_, rfl⟩ (.id t hr) hid hpr g inputs hin s
    | @product _ l m hr h1 h2 h3 =>
      have hp : c.prim ref = none := by
        cases hp : c.prim ref with
        | none => rfl
        | some p =>
          obtain ⟨l', h1, h2⟩ := hl.prim _ _ hp
          rw [hr] at h1; injection h1 with h1; subst h1
          cases p <;> simp [Prim.Writes] at h2
      have hcl := hreg _ _ hr
      have hlen := hroot _ _ hr rfl
      rw [hde _ hr]
      simp only [serialize, hp, hr, writeLayout, Dehydrate.layout, TypedValue.untype]
      rw [intro_emit (by rw [hlen]; exact hcl.1), Dehydrate.intro_emit (by rw [hlen]; exact hcl.1)]
      rw [bind_pure_ok]
      · refine fields_agree (fields := l.fields) ?_ (hk _ _ hr) h2 ?_ l.fields m (.refl _) (fun _ h => h)
          (h1.nodup (hk _ _ hr)) (fun e he _ => he) h1 _
        · intro e he
          rw [Dehydrate.length_flat_child, hlen]
          exact hcl.2 e he
        · intro k w f hkw hkf
          refine hag _ hr f.value ?_ w (h3 k w f hkw hkf) ?_ ?_
          · simp only [Layout.formats, List.mem_map]; exact ⟨_, hkf, rfl⟩
          · cases hid with
            | map h => exact h _ hkw
          · intro q hq
            refine hpr q (.map (k := k) (v := w.untype) ?_ hq)
            rw [TypedValue.untypeMap_eq]
            exact List.mem_map.2 ⟨_, hkw, rfl⟩
      · intro s'
        refine requireKeys_ok l.fields ?_ s'
        intro k f hkf hreq
        obtain ⟨w, hw⟩ := h2 k f hkf hreq
        exact ⟨w.untype, by rw [TypedValue.untypeMap_eq]; exact List.mem_map.2 ⟨_, hw, rfl⟩⟩
    | @unordered _ l vs hr h1 =>
      have hp : c.prim ref = none := by
        cases hp : c.prim ref with
        | none => rfl
        | some p =>
          obtain ⟨l', h1, h2⟩ := hl.prim _ _ hp
          rw [hr] at h1; injection h1 with h1; subst h1
          cases p <;> simp [Prim.Writes] at h2
      have hcl := hreg _ _ hr
      have hlen := hroot _ _ hr rfl
      rw [hde _ hr]
      simp only [serialize, hp, hr, writeLayout, Dehydrate.layout, TypedValue.untype]
      rw [intro_emit (by rw [hlen]; exact hcl.1), Dehydrate.intro_emit (by rw [hlen]; exact hcl.1)]
      refine items_agree (by rw [Dehydrate.length_flat_child, hlen]; exact hcl.2) vs ?_ _
      intro w hw
      refine hag _ hr _ (by simp [Layout.formats]) w (h1 w hw) ?_ ?_
      · cases hid with
        | list h => exact h _ hw
      · intro q hq
        refine hpr q (.list (v := w.untype) ?_ hq)
        rw [TypedValue.untypeList_eq]
        exact List.mem_map.2 ⟨_, hw, rfl⟩
    | @ordered _ l vs hr h1 =>
      have hp : c.prim ref = none := by
        cases hp : c.prim ref with
        | none => rfl
        | some p =>
          obtain ⟨l', h1, h2⟩ := hl.prim _ _ hp
          rw [hr] at h1; injection h1 with h1; subst h1
          cases p <;> simp [Prim.Writes] at h2
      have hcl := hreg _ _ hr
      have hlen := hroot _ _ hr rfl
      rw [hde _ hr]
      simp only [serialize, hp, hr, writeLayout, Dehydrate.layout, TypedValue.untype]
      rw [intro_emit (by rw [hlen]; exact hcl.1), Dehydrate.intro_emit (by rw [hlen]; exact hcl.1)]
      have hhead : l.head.Below (Env.child (.root inputs) (Dehydrate.freshList s.fresh l.intro)).flat.length := by
        rw [Dehydrate.length_flat_child, hlen]; exact hcl.2.1
      rw [inst_eq hhead, Dehydrate.instPattern_eq hhead]
      rw [read_bind (a := Dehydrate.patInst _ l.head) rfl, read_bind (a := Dehydrate.patInst _ l.head) rfl]
      refine nodes_agree (by rw [Dehydrate.length_flat_child, hlen]; exact hcl.2.2.1)
        (by rw [Dehydrate.length_flat_child, hlen]; exact hcl.2.2.2) _ vs ?_ _
      intro w hw
      refine hag _ hr _ (by simp [Layout.formats]) w (h1 w hw) ?_ ?_
      · cases hid with
        | list h => exact h _ hw
      · intro q hq
        refine hpr q (.list (v := w.untype) ?_ hq)
        rw [TypedValue.untypeList_eq]
        exact List.mem_map.2 ⟨_, hw, rfl⟩
    | @sized _ l vs hr hle h1 =>
      have hp : c.prim ref = none := by
        cases hp : c.prim ref with
        | none => rfl
        | some p =>
          obtain ⟨l', h1, h2⟩ := hl.prim _ _ hp
          rw [hr] at h1; injection h1 with h1; subst h1
          cases p <;> simp [Prim.Writes] at h2
      have hcl := hreg _ _ hr
      have hlen := hroot _ _ hr rfl
      rw [hde _ hr]
      simp only [serialize, hp, hr, writeLayout, Dehydrate.layout, TypedValue.untype]
      rw [intro_emit (by rw [hlen]; exact hcl.1), Dehydrate.intro_emit (by rw [hlen]; exact hcl.1)]
      refine sized_agree l.items (fun i hi => by rw [Dehydrate.length_flat_child, hlen]; exact hcl.2 i hi) vs hle ?_ _
      rintro ⟨i, w⟩ hw
      have hwm := (List.of_mem_zip hw).2
      refine hag _ hr _ ?_ w (h1 _ hw) ?_ ?_
      · simp only [Layout.formats, List.mem_map]; exact ⟨_, (List.of_mem_zip hw).1, rfl⟩
      · cases hid with
        | list h => exact h _ hwm
      · intro q hq
        refine hpr q (.list (v := w.untype) ?_ hq)
        rw [TypedValue.untypeList_eq]
        exact List.mem_map.2 ⟨_, hwm, rfl⟩
    | sum i y w hr => exact absurd hr (hns _ _)

/-! ## Success -/

/-- The computation always succeeds. -/
def Succeeds (x : DeM Unit) : Prop := ∀ s, ∃ s', x s = (.ok (), s')

theorem Succeeds.bind {x : DeM Unit} {f : Unit → DeM Unit} (hx : Succeeds x) (hf : Succeeds (f ())) :
    Succeeds (x.bind f) := by
  intro s
  obtain ⟨s', h⟩ := hx s
  rw [DeM.bind_ok h]
  exact hf s'

theorem Succeeds.item {rec : SRec} {g : Option IRes} {env : Env IRes} {k : Nat}
    {qs : List (QuadPat Term)} {fmt : ValueFormat Term} {v : TypedValue Term} (h1 : PatsBelow (env.flat.length + k) qs)
    (h2 : fmt.Below (env.flat.length + k))
    (h : ∀ g ins, ins.length = fmt.input.length → Succeeds (rec v g fmt.layout ins)) :
    Succeeds (writeItem rec g env k qs fmt v) := by
  intro s
  rw [writeItem_eq h1 h2]
  exact h _ _ (by simp) _

/-- Every value of a derived type can be serialized. -/
theorem serialize_succeeds (c : SeCtx) (hl : SeLaws c) (hreg : c.reg.Closed)
    (hwt : c.reg.WellTyped) (hk : c.reg.DistinctKeys) (ref : Term) (v : TypedValue Term) (hv : HasType c.reg ref v) :
    ∃ N, ∀ n, N ≤ n → ∀ (g : Option IRes) (inputs : List IRes),
      (∀ l k, c.reg ref = some l → l.inputCount = some k → inputs.length = k) →
      Succeeds (serialize c n v g ref inputs) := by
  have harity : ∀ {ref l}, c.reg ref = some l → ∀ f ∈ l.formats, ∀ ins : List IRes, ins.length = f.input.length →
      ∀ l' k, c.reg f.layout = some l' → l'.inputCount = some k → ins.length = k := by
    intro ref l hr f hf ins hlen l'' k hl'' hk''
    obtain ⟨l', h1, h2⟩ := hwt ref l hr f hf
    rw [h1] at hl''
    injection hl'' with e
    subst e
    rw [hlen, h2 k hk'']
  have hroot : ∀ {inputs : List IRes} {k m : Nat} {qs : List (QuadPat Term)} (f : Env IRes → DeM Unit), inputs.length = k →
      PatsBelow (k + m) qs → (∀ env : Env IRes, env.flat.length = k + m → Succeeds (f env)) →
      Succeeds ((Dehydrate.intro (.root inputs) m).bind fun e => (instDataset e qs).bind fun _ => f e) := by
    intro inputs k m qs f hi hq hf s
    rw [intro_emit (by change PatsBelow (inputs.length + _) _; rw [hi]; exact hq)]
    exact hf _ (by rw [Dehydrate.length_flat_child]; change inputs.length + _ = _; rw [hi]) _
  have hlit : ∀ {ref : Term} {inputs : List IRes} {d : DataLayout Term} {l : Layout Term} {lit : TypedLiteral Term},
      c.reg ref = some l → inputs.length = 1 → l.datatype? = some d.datatype →
      PatsBelow (1 + d.intro) d.dataset → (d.resource = .var 0 ∨ ∃ t, d.resource = .res t) →
      Succeeds (writeData c inputs d lit) := by
    intro ref inputs d l lit hr hi hd hcl hres s
    obtain ⟨i, hi'⟩ := hl.datatype _ _ _ hr hd
    exact ⟨_, by rw [writeData_eq hi hcl hres hi']; rfl⟩
  have hn : ∀ {n N : Nat}, N + 1 ≤ n → ∃ m, n = m + 1 ∧ N ≤ m := fun {n N} h => ⟨n - 1, by omega, by omega⟩
  have hnp : ∀ {ref l}, c.reg ref = some l → (∀ p : Prim, ¬ p.Writes l) → c.prim ref = none := by
    intro ref l hr h
    cases hp : c.prim ref with
    | none => rfl
    | some p =>
      obtain ⟨l', h1, h2⟩ := hl.prim _ _ hp
      rw [hr] at h1; injection h1 with h1; subst h1
      exact absurd h2 (h p)
  induction hv with
  | @unit ref l hr =>
    refine ⟨1, fun n h g inputs hin => ?_⟩
    obtain ⟨n, rfl, -⟩ := hn (N := 0) h
    simp only [serialize, hnp hr (by intro p; cases p <;> simp [Prim.Writes]), hr, writeLayout]
    intro s
    rw [Dehydrate.intro_bind, instDataset_eq]
    · exact ⟨_, rfl⟩
    · rw [Dehydrate.length_flat_child]
      change PatsBelow (inputs.length + _) _
      rw [hin _ 1 hr rfl]
      exact hreg _ _ hr
  | @boolean ref l b hr =>
    refine ⟨1, fun n h g inputs hin => ?_⟩
    obtain ⟨n, rfl, -⟩ := hn (N := 0) h
    simp only [serialize, hnp hr (by intro p; cases p <;> simp [Prim.Writes]), hr, writeLayout]
    exact hlit hr (hin _ 1 hr rfl) rfl (hreg _ _ hr).1 (hl.ofInput _ _ hr)
  | @number ref l q hr =>
    refine ⟨1, fun n h g inputs hin => ?_⟩
    obtain ⟨n, rfl, -⟩ := hn (N := 0) h
    cases hp : c.prim ref with
    | none =>
      simp only [serialize, hp, hr, writeLayout]
      exact hlit hr (hin _ 1 hr rfl) rfl (hreg _ _ hr).1 (hl.ofInput _ _ hr)
    | some p =>
      obtain ⟨l', h1, h2⟩ := hl.prim _ _ hp
      rw [hr] at h1; injection h1 with h1; subst h1
      obtain ⟨r, rfl⟩ := List.length_eq_one_iff.1 (hin _ 1 hr rfl)
      simp only [serialize, hp]
      cases p with
      | id => simp [Prim.Writes] at h2
      | string => simp [Prim.Writes] at h2
      | int dt lo hi => exact fun s => ⟨_, rfl⟩
  | @textString ref l t hr =>
    refine ⟨1, fun n h g inputs hin => ?_⟩
    obtain ⟨n, rfl, -⟩ := hn (N := 0) h
    cases hp : c.prim ref with
    | none =>
      simp only [serialize, hp, hr, writeLayout]
      exact hlit (d := l.toDataLayout) hr (hin _ 1 hr rfl) rfl (hreg _ _ hr).1 (hl.ofInput _ _ hr)
    | some p =>
      obtain ⟨l', h1, h2⟩ := hl.prim _ _ hp
      rw [hr] at h1; injection h1 with h1; subst h1
      obtain ⟨r, rfl⟩ := List.length_eq_one_iff.1 (hin _ 1 hr rfl)
      simp only [serialize, hp]
      cases p with
      | id => simp [Prim.Writes] at h2
      | string => exact fun s => ⟨_, rfl⟩
      | int dt lo hi => simp [Prim.Writes] at h2
  | @id ref l t hr =>
    refine ⟨1, fun n h g inputs hin => ?_⟩
    obtain ⟨n, rfl, -⟩ := hn (N := 0) h
    have h1 := hin _ 1 hr rfl
    obtain ⟨r, rfl⟩ := List.length_eq_one_iff.1 h1
    cases hp : c.prim ref with
    | none =>
      simp only [serialize, hp, hr, writeLayout]
      refine hroot _ h1 (hreg _ _ hr).1 fun env _ s => ⟨_, rfl⟩
    | some p =>
      obtain ⟨l', h1, h2⟩ := hl.prim _ _ hp
      rw [hr] at h1; injection h1 with h1; subst h1
      simp only [serialize, hp]
      cases p with
      | id => exact fun s => ⟨_, rfl⟩
      | string => simp [Prim.Writes] at h2
      | int dt lo hi => simp [Prim.Writes] at h2
  | @product ref l m hr h1 h2 h3 ih =>
    have hcl := hreg _ _ hr
    have hbound : ∃ N, ∀ k v f, (k, v) ∈ m → (k, f) ∈ l.fields → ∀ n, N ≤ n → ∀ (g : Option IRes) (ins : List IRes),
        ins.length = f.value.input.length → Succeeds (serialize c n v g f.value.layout ins) := by
      have : ∀ (m' : List (Value × TypedValue Term)), (∀ e ∈ m', e ∈ m) → ∀ fs : List (Value × Field Term),
          (∀ e ∈ fs, e ∈ l.fields) → ∃ N, ∀ k v f, (k, v) ∈ m' → (k, f) ∈ fs → ∀ n, N ≤ n →
          ∀ (g : Option IRes) (ins : List IRes), ins.length = f.value.input.length →
          Succeeds (serialize c n v g f.value.layout ins) := by
        intro m' hm' fs hfs
        induction m' with
        | nil => exact ⟨0, fun k v f h => by simp at h⟩
        | cons e m' ihm =>
          obtain ⟨N1, hN1⟩ := ihm fun e he => hm' e (by simp [he])
          have : ∃ N, ∀ f, (e.1, f) ∈ fs → ∀ n, N ≤ n → ∀ (g : Option IRes) (ins : List IRes),
              ins.length = f.value.input.length → Succeeds (serialize c n e.2 g f.value.layout ins) := by
            clear hN1 ihm
            induction fs with
            | nil => exact ⟨0, fun f h => by simp at h⟩
            | cons e' fs ihf =>
              obtain ⟨N2, hN2⟩ := ihf fun e he => hfs e (by simp [he])
              by_cases hk' : e'.1 = e.1
              · have hin' : (e.1, e'.2) ∈ l.fields := by rw [← hk']; exact hfs e' (by simp)
                obtain ⟨N3, hN3⟩ := ih e.1 e.2 e'.2 (hm' e (by simp)) hin'
                refine ⟨max N2 N3, fun f hf n hn' g ins hlen => ?_⟩
                rcases List.mem_cons.1 hf with hf | hf
                · have : f = e'.2 := by rw [← hf]
                  subst this
                  exact hN3 n (by omega) g ins (harity hr _
                    (by simp only [Layout.formats, List.mem_map]; exact ⟨_, hin', rfl⟩) ins hlen)
                · exact hN2 f hf n (by omega) g ins hlen
              · refine ⟨N2, fun f hf n hn' g ins hlen => ?_⟩
                rcases List.mem_cons.1 hf with hf | hf
                · exact absurd (by rw [← hf]) hk'
                · exact hN2 f hf n hn' g ins hlen
          obtain ⟨N2, hN2⟩ := this
          refine ⟨max N1 N2, fun k v f hkv hkf n hn' g ins hlen => ?_⟩
          rcases List.mem_cons.1 hkv with rfl | hkv
          · exact hN2 f hkf n (by omega) g ins hlen
          · exact hN1 k v f hkv hkf n (by omega) g ins hlen
      exact this m (fun _ h => h) l.fields fun _ h => h
    obtain ⟨N, hN⟩ := hbound
    refine ⟨N + 1, fun n h g inputs hin => ?_⟩
    obtain ⟨n, rfl, hn⟩ := hn h
    simp only [serialize, hnp hr (by intro p; cases p <;> simp [Prim.Writes]), hr, writeLayout]
    refine hroot _ (hin _ _ hr rfl) hcl.1 fun env henv => ?_
    have : ∀ fs : List (Value × Field Term), (∀ e ∈ fs, e ∈ l.fields) →
        Succeeds (writeFields (serialize c n) g env m fs) := by
      intro fs hfs
      induction fs with
      | nil => exact fun s => ⟨_, rfl⟩
      | cons e fs ihf =>
        obtain ⟨k, f⟩ := e
        have hin' := hfs (k, f) (by simp)
        unfold writeFields
        cases hf : m.find? (fun e => e.1 == k) with
        | none =>
          have hreq : f.required = false := by
            cases hreq : f.required with
            | false => rfl
            | true =>
              obtain ⟨v, hv⟩ := h2 k f hin' hreq
              have := List.find?_eq_none.1 hf _ hv
              simp at this
          simp only [hreq, Bool.false_eq_true, if_false]
          exact ihf fun e he => hfs e (by simp [he])
        | some e =>
          have hmem := List.mem_of_find?_eq_some hf
          have hkey : e.1 = k := by simpa using List.find?_some hf
          refine Succeeds.bind (Succeeds.item ?_ ?_ fun g' ins hlen => ?_) (ihf fun e he => hfs e (by simp [he]))
          · rw [henv]; exact (hcl.2 _ hin').1
          · rw [henv]; exact (hcl.2 _ hin').2
          · exact hN k e.2 f (by rw [← hkey]; exact hmem) hin' n hn g' ins hlen
    exact this l.fields fun _ h => h
  | @unordered ref l vs hr h1 ih =>
    have hcl := hreg _ _ hr
    have hbound : ∃ N, ∀ v ∈ vs, ∀ n, N ≤ n → ∀ (g : Option IRes) (ins : List IRes),
        ins.length = l.item.value.input.length → Succeeds (serialize c n v g l.item.value.layout ins) := by
      clear h1
      induction vs with
      | nil => exact ⟨0, by simp⟩
      | cons v vs ihv =>
        obtain ⟨N, hN⟩ := ihv fun v hv => ih v (by simp [hv])
        obtain ⟨N', hN'⟩ := ih v (by simp)
        refine ⟨max N N', fun w hw n hn g ins hlen => ?_⟩
        rcases List.mem_cons.1 hw with rfl | hw
        · exact hN' n (by omega) g ins (harity hr _ (by simp [Layout.formats]) ins hlen)
        · exact hN w hw n (by omega) g ins hlen
    obtain ⟨N, hN⟩ := hbound
    refine ⟨N + 1, fun n h g inputs hin => ?_⟩
    obtain ⟨n, rfl, hn⟩ := hn h
    simp only [serialize, hnp hr (by intro p; cases p <;> simp [Prim.Writes]), hr, writeLayout]
    refine hroot _ (hin _ _ hr rfl) hcl.1 fun env henv => ?_
    clear h1 ih
    induction vs with
    | nil => exact fun s => ⟨_, rfl⟩
    | cons v vs ihv =>
      exact Succeeds.bind (Succeeds.item (by rw [henv]; exact hcl.2.1) (by rw [henv]; exact hcl.2.2)
        fun g ins hlen => hN v (by simp) n hn g ins hlen) (ihv fun v hv => hN v (by simp [hv]))
  | @ordered ref l vs hr h1 ih =>
    have hcl := hreg _ _ hr
    have hbound : ∃ N, ∀ v ∈ vs, ∀ n, N ≤ n → ∀ (g : Option IRes) (ins : List IRes),
        ins.length = l.node.value.input.length → Succeeds (serialize c n v g l.node.value.layout ins) := by
      clear h1
      induction vs with
      | nil => exact ⟨0, by simp⟩
      | cons v vs ihv =>
        obtain ⟨N, hN⟩ := ihv fun v hv => ih v (by simp [hv])
        obtain ⟨N', hN'⟩ := ih v (by simp)
        refine ⟨max N N', fun w hw n hn g ins hlen => ?_⟩
        rcases List.mem_cons.1 hw with rfl | hw
        · exact hN' n (by omega) g ins (harity hr _ (by simp [Layout.formats]) ins hlen)
        · exact hN w hw n (by omega) g ins hlen
    obtain ⟨N, hN⟩ := hbound
    refine ⟨N + 1, fun n h g inputs hin => ?_⟩
    obtain ⟨n, rfl, hn⟩ := hn h
    simp only [serialize, hnp hr (by intro p; cases p <;> simp [Prim.Writes]), hr, writeLayout]
    refine hroot _ (hin _ _ hr rfl) hcl.1 fun env henv => ?_
    intro s
    rw [DeM.bind_ok (s' := s) (a := Dehydrate.patInst env.flat l.head)
      (by simp only [DeM.read, inst_eq (show l.head.Below env.flat.length by rw [henv]; exact hcl.2.1)])]
    revert s
    generalize Dehydrate.patInst env.flat l.head = head
    clear h1 ih
    change Succeeds _
    induction vs generalizing head with
    | nil => exact fun s => ⟨_, rfl⟩
    | cons v vs ihv =>
      intro s
      unfold writeNodes
      have hnext : ∃ next s', (if vs.isEmpty then DeM.read fun _ => instPattern env l.tail else Dehydrate.newResource) s =
          (.ok next, s') := by
        split
        · exact ⟨Dehydrate.patInst env.flat l.tail, s, by
            simp only [DeM.read, inst_eq (show l.tail.Below env.flat.length by rw [henv]; exact hcl.2.2.1)]⟩
        · exact ⟨_, _, rfl⟩
      obtain ⟨next, s', hs'⟩ := hnext
      rw [DeM.bind_ok hs']
      have hl2 : (env.bind [head, next]).flat.length = l.input + l.intro + 2 := by
        simp [Env.bind, Env.flat, henv]
      exact Succeeds.bind (Succeeds.item (by rw [hl2]; exact hcl.2.2.2.1) (by rw [hl2]; exact hcl.2.2.2.2)
        fun g ins hlen => hN v (by simp) n hn g ins hlen) (ihv (fun v hv => hN v (by simp [hv])) next) s'
  | @sized ref l vs hr hle h1 ih =>
    have hcl := hreg _ _ hr
    have hbound : ∃ N, ∀ e ∈ l.items.zip vs, ∀ n, N ≤ n → ∀ (g : Option IRes) (ins : List IRes),
        ins.length = e.1.value.input.length → Succeeds (serialize c n e.2 g e.1.value.layout ins) := by
      have : ∀ es : List (ItemLayout Term × TypedValue Term), (∀ e ∈ es, e ∈ l.items.zip vs) →
          ∃ N, ∀ e ∈ es, ∀ n, N ≤ n → ∀ (g : Option IRes) (ins : List IRes),
          ins.length = e.1.value.input.length → Succeeds (serialize c n e.2 g e.1.value.layout ins) := by
        intro es hes
        induction es with
        | nil => exact ⟨0, by simp⟩
        | cons e es ihe =>
          obtain ⟨N, hN⟩ := ihe fun e he => hes e (by simp [he])
          have hz := hes e (by simp)
          obtain ⟨N', hN'⟩ := ih e hz
          refine ⟨max N N', fun w hw n hn g ins hlen => ?_⟩
          rcases List.mem_cons.1 hw with rfl | hw
          · exact hN' n (by omega) g ins (harity hr _ (by
              simp only [Layout.formats, List.mem_map]; exact ⟨_, (List.of_mem_zip hz).1, rfl⟩) ins hlen)
          · exact hN w hw n (by omega) g ins hlen
      exact this _ fun _ h => h
    obtain ⟨N, hN⟩ := hbound
    refine ⟨N + 1, fun n h g inputs hin => ?_⟩
    obtain ⟨n, rfl, hn⟩ := hn h
    simp only [serialize, hnp hr (by intro p; cases p <;> simp [Prim.Writes]), hr, writeLayout]
    refine hroot _ (hin _ _ hr rfl) hcl.1 fun env henv => ?_
    have hcl2 := hcl.2
    clear h1 ih
    revert hN hle hcl2
    generalize l.items = items
    intro hle hN hcl2
    induction items generalizing vs with
    | nil =>
      cases vs with
      | nil => exact fun s => ⟨_, rfl⟩
      | cons => simp at hle
    | cons item items ihi =>
      cases vs with
      | nil => simp at hle
      | cons v vs =>
        simp only [List.zip_cons_cons, List.forall_mem_cons] at hN hcl2
        exact Succeeds.bind (Succeeds.item (by rw [henv]; exact hcl2.1.1) (by rw [henv]; exact hcl2.1.2)
          fun g ins hlen => hN.1 n hn g ins hlen) (ihi vs (by simpa using hle) hN.2 hcl2.2)
  | @sum ref l i y w hr hi _ ih =>
    have hcl := hreg _ _ hr
    obtain ⟨N, hN⟩ := ih
    have hy := List.mem_of_getElem? hi
    refine ⟨N + 1, fun n h g inputs hin => ?_⟩
    obtain ⟨n, rfl, hn⟩ := hn h
    simp only [serialize, hnp hr (by intro p; cases p <;> simp [Prim.Writes]), hr, writeLayout, hi]
    refine hroot _ (hin _ _ hr rfl) hcl.1 fun env henv => ?_
    exact Succeeds.item (by rw [henv]; exact (hcl.2 _ hy).1) (by rw [henv]; exact (hcl.2 _ hy).2) fun g ins hlen =>
      hN n hn g ins (harity hr _ (by simp only [Layout.formats, List.mem_map]; exact ⟨_, hy, rfl⟩) ins hlen)

end Derived

end Verif
