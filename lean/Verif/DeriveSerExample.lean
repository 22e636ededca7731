import Verif.DeriveExample
import Verif.DeriveRound

/-! # Concrete derived types to serialize, used to show that the hypotheses of the theorems can be met -/

namespace Verif.SerExample

open DeExample (q c val text number ident tags)
open TreeExample (reg club person members place link self)

/-- The types of the layouts of `TreeExample`: `id` is a type of the runtime, the others are derived. -/
def ctx : SeCtx where
  reg := reg
  prim
    | .iri "id" => some .id
    | _ => none
  text
    | .boolean b _ => Example.xsd.printBoolean b
    | .number q _ => (Example.xsd.printDecimal q).getD ""
    | .textString s _ => s
    | _ => ""
  isIri _ := true

/-- The literal types. -/
def fromLiteral (ref : Term) (s : String) : Option (TypedLiteral Term) :=
  if ref = .iri "text" then some (.textString s ref)
  else if ref = .iri "number" then (Example.xsd.parseDecimal s).map fun q => .number q ref
  else none

/-- No integer type is used. -/
def parseInt (_ : String) : Option Int := none

/-- The context of deserialization. -/
def dsCtx (ds : List (Quad Term)) : DsCtx Term := .ofTerms ctx fromLiteral parseInt ds

theorem cases {P : Term → Layout Term → Prop} (h1 : P (.iri "club") (.product club)) (h2 : P (.iri "person") (.product person))
    (h3 : P (.iri "members") (.ordered members)) (h4 : P (.iri "place") (.sized place)) (h5 : P (.iri "text") (.textString text))
    (h6 : P (.iri "number") (.number number)) (h7 : P (.iri "id") (.id ident)) (h8 : P (.iri "tags") (.unordered tags)) :
    ∀ ref l, reg ref = some l → P ref l := by
  intro ref l h
  unfold reg at h
  split at h <;> simp only [Option.some.injEq, reduceCtorEq] at h <;> subst h <;> assumption

theorem closed : reg.Closed := by
  unfold Registry.Closed
  refine TreeExample.reg_cases ?_ ?_ ?_ ?_ ?_ ?_ ?_ ?_ <;>
    simp [club, person, members, place, text, number, ident, tags, link, self, Layout.Closed, ItemLayout.Closed, PatsBelow,
      patsVars, QuadPat.vars, Pattern.vars, ValueFormat.Below, Pattern.Below, q, val, c]

theorem wellTyped : reg.WellTyped := by
  unfold Registry.WellTyped
  refine TreeExample.reg_cases ?_ ?_ ?_ ?_ ?_ ?_ ?_ ?_ <;>
    simp [club, person, members, place, text, number, ident, tags, link, self, Layout.formats, val, reg, Layout.inputCount]

theorem distinctKeys : reg.DistinctKeys := by
  intro ref l h
  have := TreeExample.reg_cases (P := fun l => ∀ p, l = .product p → (p.fields.map Prod.fst).Nodup)
    (by rintro p ⟨⟩; decide +kernel) (by rintro p ⟨⟩; decide +kernel) (by simp) (by simp) (by simp) (by simp) (by simp)
    (by simp) ref _ h
  exact this l rfl

theorem noSum (ref : Term) (l : SumLayout Term) : reg ref ≠ some (.sum l) := by
  intro h
  have := TreeExample.reg_cases (P := fun l => ∀ p, l ≠ .sum p) (by simp) (by simp) (by simp) (by simp) (by simp) (by simp)
    (by simp) (by simp) ref _ h
  exact this l rfl

theorem noUnit (ref : Term) (l : UnitLayout Term) : reg ref ≠ some (.unit l) := by
  intro h
  have := TreeExample.reg_cases (P := fun l => ∀ p, l ≠ .unit p) (by simp) (by simp) (by simp) (by simp) (by simp) (by simp)
    (by simp) (by simp) ref _ h
  exact this l rfl

theorem noBool (ref : Term) (l : DataLayout Term) : reg ref ≠ some (.boolean l) := by
  intro h
  have := TreeExample.reg_cases (P := fun l => ∀ p, l ≠ .boolean p) (by simp) (by simp) (by simp) (by simp) (by simp) (by simp)
    (by simp) (by simp) ref _ h
  exact this l rfl

theorem isNumber {ref : Term} {l : DataLayout Term} (h : reg ref = some (.number l)) : ref = .iri "number" ∧ l = number := by
  have := cases (P := fun r l => ∀ p, l = .number p → r = .iri "number" ∧ p = number) (by simp) (by simp) (by simp) (by simp)
    (by simp) (by rintro p ⟨⟩; exact ⟨rfl, rfl⟩) (by simp) (by simp) ref _ h
  exact this l rfl

theorem isText {ref : Term} {l : TextLayout Term} (h : reg ref = some (.textString l)) : ref = .iri "text" ∧ l = text := by
  have := cases (P := fun r l => ∀ p, l = .textString p → r = .iri "text" ∧ p = text) (by simp) (by simp) (by simp) (by simp)
    (by rintro p ⟨⟩; exact ⟨rfl, rfl⟩) (by simp) (by simp) (by simp) ref _ h
  exact this l rfl

theorem seLaws : SeLaws ctx where
  prim := by
    intro ref p h
    simp only [ctx] at h
    split at h <;> simp only [Option.some.injEq, reduceCtorEq] at h
    subst h
    exact ⟨.id ident, rfl, rfl⟩
  ofInput := by
    refine TreeExample.reg_cases ?_ ?_ ?_ ?_ ?_ ?_ ?_ ?_ <;> simp [Layout.OfInput, text, number, ident]
  datatype := by
    intro ref l d h
    have := TreeExample.reg_cases (P := fun l => ∀ d, l.datatype? = some d → ∃ i, d = .iri i)
      (by simp [Layout.datatype?]) (by simp [Layout.datatype?]) (by simp [Layout.datatype?]) (by simp [Layout.datatype?])
      (by simp [Layout.datatype?, text]) (by simp [Layout.datatype?, number]) (by simp [Layout.datatype?])
      (by simp [Layout.datatype?]) ref l h
    exact this d

theorem seText : SeText ctx Example.xsd where
  boolType _ _ h := absurd h (noBool _ _)
  numType := by
    intro ref l i h hi
    obtain ⟨rfl, rfl⟩ := isNumber h
    injection hi with hi
    subst hi
    rfl
  boolean _ _ _ h := absurd h (noBool _ _)
  number := by
    intro ref l q s h hq
    simp only [ctx, hq, Option.getD_some]
  text _ _ _ _ := rfl

theorem dsLaws (ds : List (Quad Term)) : DsLaws (dsCtx ds) Example.xsd where
  prim := by
    intro ref p h
    simp only [dsCtx, DsCtx.ofTerms, ctx] at h
    split at h <;> simp only [Option.some.injEq, reduceCtorEq] at h
    subst h
    exact ⟨.id ident, rfl, rfl⟩
  datatype := by
    intro ref l d h
    have := TreeExample.reg_cases (P := fun l => ∀ d, l.datatype? = some d →
        (dsCtx ds).irisOf d = [(dsCtx ds).datatypeIri d] ∧ (dsCtx ds).datatypeIri d ≠ "http://www.w3.org/1999/02/22-rdf-syntax-ns#langString")
      (by simp [Layout.datatype?]) (by simp [Layout.datatype?]) (by simp [Layout.datatype?]) (by simp [Layout.datatype?])
      (by rintro d ⟨⟩; exact ⟨rfl, by simp [dsCtx, DsCtx.ofTerms, text, rdfLangString]⟩)
      (by rintro d ⟨⟩; exact ⟨rfl, by simp [dsCtx, DsCtx.ofTerms, number, rdfLangString]⟩)
      (by simp [Layout.datatype?]) (by simp [Layout.datatype?]) ref l h
    exact this d
  boolType _ _ h := absurd h (noBool _ _)
  numType := by
    intro ref l h
    obtain ⟨rfl, rfl⟩ := isNumber h
    rfl
  boolean _ _ _ _ h := absurd h (noBool _ _)
  number := by
    intro ref l s lit h h'
    obtain ⟨rfl, rfl⟩ := isNumber h
    simp only [dsCtx, DsCtx.ofTerms, fromLiteral, Term.iri.injEq, String.reduceEq, if_false, if_true,
      Option.map_eq_some_iff] at h'
    obtain ⟨q, hq, rfl⟩ := h'
    exact ⟨q, hq, rfl⟩
  bytes := by
    intro ref l s h
    have := TreeExample.reg_cases (P := fun l => ∀ p, l ≠ .byteString p) (by simp) (by simp) (by simp) (by simp) (by simp)
      (by simp) (by simp) (by simp) ref _ h
    exact absurd rfl (this l)
  text := by
    intro ref l s lit h h'
    obtain ⟨rfl, rfl⟩ := isText h
    simp only [dsCtx, DsCtx.ofTerms, fromLiteral, if_true, Option.some.injEq] at h'
    exact h'.symm
  int _ _ h := by simp [dsCtx, DsCtx.ofTerms, parseInt] at h
  single r := by
    simp only [dsCtx, DsCtx.ofTerms]
    split <;> simp

theorem dsTotal (ds : List (Quad Term)) : DsTotal (dsCtx ds) Example.xsd where
  known _ := rfl
  boolean _ _ _ _ h := absurd h (noBool _ _)
  text := by
    intro ref l s h
    obtain ⟨rfl, rfl⟩ := isText h
    exact ⟨_, rfl⟩
  number := by
    intro ref l h r lit _ _ q hq
    obtain ⟨rfl, rfl⟩ := isNumber h
    exact ⟨.number q (.iri "number"), by
      simp only [dsCtx, DsCtx.ofTerms, fromLiteral, Term.iri.injEq, String.reduceEq, if_false, if_true, hq, Option.map_some]⟩
  discriminated _ _ h := absurd h (noSum _ _)
  noAlways ref h := by
    have := TreeExample.reg_cases (P := fun l => l ≠ .always) (by simp) (by simp) (by simp) (by simp) (by simp)
      (by simp) (by simp) (by simp) ref _ h
    exact this rfl

/-- A text. -/
def str (s : String) : TypedValue Term := .literal (.textString s (.iri "text"))

/-- A number. -/
def num (q : Rat) : TypedValue Term := .literal (.number q (.iri "number"))

/-- A person. -/
def alice : TypedValue Term :=
  .map [(.text "age", num 1), (.text "id", .literal (.id "alice" (.iri "id"))), (.text "name", str "Alice")] (.iri "person")

/-- Another one. -/
def bob : TypedValue Term :=
  .map [(.text "id", .literal (.id "bob" (.iri "id"))), (.text "name", str "Bob")] (.iri "person")

/-- A club. -/
def chess : TypedValue Term :=
  .map [(.text "members", .list [alice, bob] (.iri "members")), (.text "place", .list [num 0, num 1] (.iri "place")),
    (.text "tags", .list [str "b", str "a"] (.iri "tags"))] (.iri "club")

theorem chess_untype : chess.untype = TreeExample.chess := rfl

theorem hasText (s : String) : HasType reg (.iri "text") (str s) := .textString s rfl

theorem hasNum (q : Rat) : HasType reg (.iri "number") (num q) := .number q rfl

theorem alice_type : HasType reg (.iri "person") alice := by
  refine .product _ (l := person) rfl (by decide +kernel) ?_ ?_
  · simp only [person, link, self, List.mem_cons, List.not_mem_nil, or_false, Prod.mk.injEq]
    rintro k f (⟨rfl, rfl⟩ | ⟨rfl, rfl⟩ | ⟨rfl, rfl⟩) hreq
    all_goals first
      | exact absurd hreq (by decide)
      | exact ⟨_, .inl ⟨rfl, rfl⟩⟩
      | exact ⟨_, .inr (.inl ⟨rfl, rfl⟩)⟩
      | exact ⟨_, .inr (.inr ⟨rfl, rfl⟩)⟩
      | exact ⟨_, .inr ⟨rfl, rfl⟩⟩
  · simp only [person, link, self, List.mem_cons, List.not_mem_nil, or_false, Prod.mk.injEq]
    rintro k v f (⟨rfl, rfl⟩ | ⟨rfl, rfl⟩ | ⟨rfl, rfl⟩) (⟨h, rfl⟩ | ⟨h, rfl⟩ | ⟨h, rfl⟩) <;>
      first
        | exact absurd h (by decide +kernel)
        | exact hasText _
        | exact hasNum _
        | exact .id (l := ident) _ rfl

theorem bob_type : HasType reg (.iri "person") bob := by
  refine .product _ (l := person) rfl (by decide +kernel) ?_ ?_
  · simp only [person, link, self, List.mem_cons, List.not_mem_nil, or_false, Prod.mk.injEq]
    rintro k f (⟨rfl, rfl⟩ | ⟨rfl, rfl⟩ | ⟨rfl, rfl⟩) hreq
    all_goals first
      | exact absurd hreq (by decide)
      | exact ⟨_, .inl ⟨rfl, rfl⟩⟩
      | exact ⟨_, .inr (.inl ⟨rfl, rfl⟩)⟩
      | exact ⟨_, .inr (.inr ⟨rfl, rfl⟩)⟩
      | exact ⟨_, .inr ⟨rfl, rfl⟩⟩
  · simp only [person, link, self, List.mem_cons, List.not_mem_nil, or_false, Prod.mk.injEq]
    rintro k v f (⟨rfl, rfl⟩ | ⟨rfl, rfl⟩) (⟨h, rfl⟩ | ⟨h, rfl⟩ | ⟨h, rfl⟩) <;>
      first
        | exact absurd h (by decide +kernel)
        | exact hasText _
        | exact hasNum _
        | exact .id (l := ident) _ rfl

theorem members_type : HasType reg (.iri "members") (.list [alice, bob] (.iri "members")) := by
  refine .ordered (l := members) _ rfl ?_
  simp only [List.mem_cons, List.not_mem_nil, or_false, forall_eq_or_imp, forall_eq]
  exact ⟨alice_type, bob_type⟩

theorem place_type : HasType reg (.iri "place") (.list [num 0, num 1] (.iri "place")) := by
  refine .sized (l := place) _ rfl rfl ?_
  simp only [place, List.zip_cons_cons, List.zip_nil_right, List.mem_cons, List.not_mem_nil, or_false, forall_eq_or_imp,
    forall_eq]
  exact ⟨hasNum _, hasNum _⟩

theorem tags_type : HasType reg (.iri "tags") (.list [str "b", str "a"] (.iri "tags")) := by
  refine .unordered (l := tags) _ rfl ?_
  simp only [List.mem_cons, List.not_mem_nil, or_false, forall_eq_or_imp, forall_eq]
  exact ⟨hasText _, hasText _⟩

theorem chess_type : HasType reg (.iri "club") chess := by
  refine .product _ (l := club) rfl (by decide +kernel) ?_ ?_
  · simp only [club, link, self, List.mem_cons, List.not_mem_nil, or_false, Prod.mk.injEq]
    rintro k f (⟨rfl, rfl⟩ | ⟨rfl, rfl⟩ | ⟨rfl, rfl⟩) hreq
    all_goals first
      | exact absurd hreq (by decide)
      | exact ⟨_, .inl ⟨rfl, rfl⟩⟩
      | exact ⟨_, .inr (.inl ⟨rfl, rfl⟩)⟩
      | exact ⟨_, .inr (.inr ⟨rfl, rfl⟩)⟩
      | exact ⟨_, .inr ⟨rfl, rfl⟩⟩
  · simp only [club, link, self, List.mem_cons, List.not_mem_nil, or_false, Prod.mk.injEq]
    rintro k v f (⟨rfl, rfl⟩ | ⟨rfl, rfl⟩ | ⟨rfl, rfl⟩) (⟨h, rfl⟩ | ⟨h, rfl⟩ | ⟨h, rfl⟩) <;>
      first
        | exact absurd h (by decide +kernel)
        | exact members_type
        | exact place_type
        | exact tags_type

theorem allIds (v : TypedValue Term) : AllIds (fun s => ctx.isIri s = true) v := by
  refine TypedValue.rec (motive_1 := fun v => AllIds (fun s => ctx.isIri s = true) v)
    (motive_2 := fun m => ∀ e ∈ m, AllIds (fun s => ctx.isIri s = true) e.2)
    (motive_3 := fun vs => ∀ v ∈ vs, AllIds (fun s => ctx.isIri s = true) v)
    (motive_4 := fun e => AllIds (fun s => ctx.isIri s = true) e.2) ?_ ?_ ?_ ?_ ?_ ?_ ?_ ?_ ?_ ?_ v
  · exact fun l => .literal l fun _ _ _ => rfl
  · exact fun _ _ _ ih => .variant ih
  · exact fun _ _ ih => .map ih
  · exact fun _ _ ih => .list ih
  · exact fun _ => .always
  · simp
  · intro e es h1 h2; simpa [h1] using fun a b h => h2 (a, b) h
  · simp
  · intro e es h1 h2; simpa [h1] using h2
  · exact fun _ _ ih => ih

end Verif.SerExample
