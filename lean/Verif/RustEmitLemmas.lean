import Verif.RustEmitSpec
import Verif.RustLemmas
import Verif.SyntaxClean

/-!
# Lemmas on the derive macros: emission
-/

set_option linter.unusedSectionVars false
set_option linter.unusedSimpArgs false

namespace Verif

/-- The outcome is a value with the property, or an error. -/
def Out.Sat {ε α : Type _} (P : α → Prop) : Out ε α → Prop
  | .ok a => P a
  | .err _ => True
  | .panic => False
  | .fuel => False

namespace Out.Sat

variable {ε α β : Type _} {P Q : α → Prop}

theorem mono {x : Out ε α} (h : x.Sat P) (hPQ : ∀ a, P a → Q a) : x.Sat Q := by
  cases x with
  | ok a => exact hPQ a h
  | err e => trivial
  | panic => exact h
  | fuel => exact h

theorem bind {x : Out ε α} {f : α → Out ε β} {Q : β → Prop} (hx : x.Sat P) (hf : ∀ a, P a → (f a).Sat Q) : (x.bind f).Sat Q := by
  cases x with
  | ok a => exact hf a hx
  | err e => trivial
  | panic => exact hx
  | fuel => exact hx

theorem bind_eq {x : Out ε α} {f : α → Out ε β} {Q : β → Prop} (hx : x.Sat P) (hf : ∀ a, x = .ok a → P a → (f a).Sat Q) :
    (x.bind f).Sat Q := by
  cases x with
  | ok a => exact hf a rfl hx
  | err e => trivial
  | panic => exact hx
  | fuel => exact hx

theorem mapErr {ε' : Type _} {x : Out ε α} {f : ε → ε'} (hx : x.Sat P) : (x.mapErr f).Sat P := by
  cases x with
  | ok a => exact hx
  | err e => trivial
  | panic => exact hx
  | fuel => exact hx

theorem of_clean {α : Type} {x : Out BuildError α} {P : α → Prop} (hc : Clean x) (h : ∀ a, x = .ok a → P a) : x.Sat P := by
  cases x with
  | ok a => exact h a rfl
  | err e => trivial
  | panic => exact absurd rfl hc.1
  | fuel => exact absurd rfl hc.2

end Out.Sat

namespace Rust

open Out (Sat)

/-! ## Variable names -/

theorem isPnCharBase_iff (c : Char) : isPnCharBase c.toNat = true ↔ PnCharsBase c := by
  have hle : ∀ a b : Char, a ≤ b ↔ a.toNat ≤ b.toNat := fun a b => Iff.rfl
  simp only [isPnCharBase, List.any_cons, List.any_nil, Bool.or_false, Bool.or_eq_true, Bool.and_eq_true, decide_eq_true_eq,
    PnCharsBase, CharIn, hle]
  exact Iff.rfl

theorem isDigit_iff (c : Char) : c.isDigit = true ↔ '0' ≤ c ∧ c ≤ '9' := by
  simp only [Char.isDigit, Bool.and_eq_true, decide_eq_true_eq]
  exact Iff.rfl

theorem isPnCharU_iff (c : Char) : isPnCharU c = true ↔ PnCharsU c := by
  simp only [isPnCharU, Bool.or_eq_true, decide_eq_true_eq, isPnCharBase_iff, PnCharsU, or_assoc]

theorem isPnChar_iff (c : Char) : isPnChar c = true ↔ PnChars c := by
  have hb : c.toNat = 0xb7 ↔ c = '·' := by
    constructor
    · intro h
      exact Char.toNat_inj.1 (h.trans (by decide))
    · rintro rfl; decide
  simp only [isPnChar, Bool.or_eq_true, decide_eq_true_eq, isPnCharU_iff, isDigit_iff, hb, PnChars, CharIn, Bool.and_eq_true, or_assoc]

theorem dot_not_pnChars : ¬ PnChars '.' := by
  rw [← isPnChar_iff]
  decide

theorem dot_not_first : ¬ (PnCharsU '.' ∨ ('0' ≤ '.' ∧ '.' ≤ '9')) := by
  rw [← isPnCharU_iff, ← isDigit_iff]
  decide

theorem isVarName_iff (s : String) : isVarName s = true ↔ BlankLabel s ∧ '.' ∉ s.toList := by
  constructor
  · intro h
    unfold isVarName at h
    split at h
    · rename_i c cs hs
      simp only [Bool.and_eq_true, Bool.or_eq_true, List.all_eq_true, isPnCharU_iff, isDigit_iff] at h
      obtain ⟨h1, h2⟩ := h
      have h2 : ∀ x ∈ cs, PnChars x := fun x hx => (isPnChar_iff x).1 (h2 x hx)
      have hdot : '.' ∉ s.toList := by
        rw [hs]
        intro hm
        rcases List.mem_cons.1 hm with e | hm
        · rw [← e] at h1
          exact dot_not_first h1.symm
        · exact dot_not_pnChars (h2 _ hm)
      refine ⟨?_, hdot⟩
      rcases List.eq_nil_or_concat cs with rfl | ⟨ds, d, rfl⟩
      · exact .one s c hs h1.symm
      · refine .more s c ds d (by simpa using hs) h1.symm (fun x hx => .inl (h2 x (by simp [hx]))) (h2 d (by simp))
    · cases h
  · rintro ⟨h, hdot⟩
    cases h with
    | one c hs h1 =>
      simp only [isVarName, hs, List.all_nil, Bool.and_true, Bool.or_eq_true, isPnCharU_iff, isDigit_iff]
      exact h1.symm
    | more c cs d hs h1 h2 h3 =>
      have hs' : s.toList = c :: (cs ++ [d]) := by simpa using hs
      simp only [isVarName, hs', Bool.and_eq_true, Bool.or_eq_true, List.all_eq_true, isPnCharU_iff, isDigit_iff, isPnChar_iff]
      refine ⟨h1.symm, fun x hx => ?_⟩
      rcases List.mem_append.1 hx with hx | hx
      · refine (h2 x hx).resolve_right ?_
        rintro rfl
        exact hdot (by rw [hs']; simp [hx])
      · cases List.mem_singleton.1 hx
        exact h3

/-! ## Attributes -/

/-- The pattern is not a literal. -/
def NoLit : SPattern → Prop
  | .literal _ _ => False
  | _ => True

/-- The quad has no literals. -/
def QuadNoLit (q : Quad SPattern) : Prop := NoLit q.s ∧ NoLit q.p ∧ NoLit q.o ∧ ∀ g, q.g = some g → NoLit g

variable {lib : IriLib}

theorem stringToken_sat (t : Tok) : (stringToken t).Sat fun s => t = .str s := by
  cases t <;> simp [stringToken, Sat]

theorem parsePattern_sat (hl : MacroLib lib) (s : String) : (parsePattern lib s).Sat NoLit := by
  unfold parsePattern
  split
  · rename_i h
    obtain ⟨l, rfl, h1, h2⟩ := hl.blank s h
    have hs : blankSuffix ("_:" ++ l) = l := by
      simp [blankSuffix]
    rw [hs, if_pos ((isVarName_iff l).2 ⟨h1, h2⟩)]
    trivial
  · split <;> trivial

theorem patternToken_sat (hl : MacroLib lib) (t : Tok) : (patternToken lib t).Sat NoLit :=
  (stringToken_sat t).bind fun s _ => parsePattern_sat hl s

theorem quadToken_sat (hl : MacroLib lib) (t : Tok) : (quadToken lib t).Sat QuadNoLit := by
  unfold quadToken
  split
  · trivial
  · refine (patternToken_sat hl _).bind fun s hs => ?_
    split
    · trivial
    · trivial
    · refine (patternToken_sat hl _).bind fun p hp => ?_
      split
      · trivial
      · trivial
      · refine (patternToken_sat hl _).bind fun o ho => ?_
        split
        · exact ⟨hs, hp, ho, by simp⟩
        · exact ⟨hs, hp, ho, by simp⟩
        · refine (patternToken_sat hl _).bind fun g hg => ⟨hs, hp, ho, ?_⟩
          rintro g' ⟨⟩
          exact hg
        · trivial
      · trivial
    · trivial
  · trivial

theorem parseList_sat {α : Type} {f : Tok → Out MacroError α} {P : α → Prop} (hf : ∀ t, (f t).Sat P) (ts : List Tok) :
    (parseList f ts).Sat fun l => ∀ a ∈ l, P a := by
  fun_induction parseList f ts with
  | case1 => intro a ha; cases ha
  | case2 t =>
    refine (hf t).bind fun a ha => ?_
    intro b hb
    cases List.mem_singleton.1 hb
    exact ha
  | case3 t ts ih =>
    refine (hf t).bind fun a ha => ih.bind fun l hl => ?_
    intro b hb
    rcases List.mem_cons.1 hb with rfl | hb
    · exact ha
    · exact hl b hb
  | case4 t => exact (hf t).bind fun a ha => trivial

theorem parseBindings_sat (ts : List Tok) : (parseBindings lib ts).Sat fun l => ∀ e ∈ l, Tok.str e.1 ∈ ts := by
  fun_induction parseBindings lib ts with
  | case1 => intro a ha; cases ha
  | case2 t => exact (stringToken_sat t).bind fun _ _ => trivial
  | case3 t => exact (stringToken_sat t).bind fun _ _ => trivial
  | case4 t v =>
    refine (stringToken_sat t).bind fun p hp => (stringToken_sat v).bind fun s hs => ?_
    split
    · intro e he
      cases List.mem_singleton.1 he
      simp [hp]
    · trivial
  | case5 t v ts ih =>
    refine (stringToken_sat t).bind fun p hp => (stringToken_sat v).bind fun s hs => ?_
    split
    · refine ih.bind fun l hl => ?_
      intro e he
      rcases List.mem_cons.1 he with rfl | he
      · simp [hp]
      · simp [hl e he]
    · trivial
  | case6 t v =>
    refine (stringToken_sat t).bind fun p hp => (stringToken_sat v).bind fun s hs => ?_
    split <;> trivial
  | case7 t => exact (stringToken_sat t).bind fun _ _ => trivial

theorem parseGraph_sat (hl : MacroLib lib) (ts : List Tok) :
    (parseGraph lib ts).Sat fun g => ∀ p, g = some (some p) → NoLit p := by
  unfold parseGraph
  split
  · trivial
  · split
    · split
      · intro p hp; cases hp
      · trivial
    · split
      · split
        · intro p hp; cases hp
        · trivial
      · split
        · split
          · trivial
          · trivial
          · refine (patternToken_sat hl _).bind fun p hp => ?_
            rintro p' ⟨⟩
            exact hp
          · trivial
        · trivial
  · trivial

theorem expectArgument_sat {α : Type} {f : List Tok → Out MacroError α} {P : α → Prop} (ts : List Tok)
    (hf : ∀ g ts', ts = .group g :: ts' → (f g).Sat P) : (expectArgument f ts).Sat fun r => P r.1 ∧ r.2 <:+ ts := by
  unfold expectArgument
  split
  · rename_i g ts'
    exact (hf g ts' rfl).bind fun a ha => ⟨ha, List.suffix_cons _ _⟩
  · trivial
  · trivial

theorem parseString_sat (ts : List Tok) : (parseString ts).Sat fun _ => True := by
  unfold parseString
  split
  · trivial
  · exact (stringToken_sat _).mono fun _ _ => trivial
  · trivial

theorem parseCompactIri_sat (ts : List Tok) : (parseCompactIri lib ts).Sat fun _ => True := by
  refine (parseString_sat ts).bind fun s _ => ?_
  split <;> trivial

theorem patternArg_sat (hl : MacroLib lib) (ts : List Tok) : (patternArg lib ts).Sat fun r => NoLit r.1 ∧ r.2 <:+ ts :=
  expectArgument_sat ts fun g _ _ => (parseString_sat g).bind fun s _ => parsePattern_sat hl s

theorem replace_sat {α : Type} [DecidableEq α] (old : Option α) (new : α) : (replace old new).Sat fun x => x = some new := by
  unfold replace
  split
  · split
    · rfl
    · trivial
  · rfl

/-- What is known of the attributes of a type. -/
structure TypeOk (a : TypeAttrs) : Prop where
  id : a.id = none
  prefixes : ∀ e ∈ a.prefixes, e.1 ≠ "rust"
  head : ∀ p, a.head = some p → NoLit p
  tail : ∀ p, a.tail = some p → NoLit p
  resource : ∀ p, a.resource = some p → NoLit p
  dataset : ∀ ds, a.dataset = some ds → ∀ q ∈ ds, QuadNoLit q

/-- What is known of the attributes of a component. -/
structure CompOk (a : CompAttrs) : Prop where
  property : ∀ p, a.property = some p → NoLit p
  dataset : ∀ ds, a.dataset = some ds → ∀ q ∈ ds, QuadNoLit q
  input : ∀ ps, a.input = some ps → ∀ p ∈ ps, NoLit p
  graph : ∀ g p, a.graph = some g → g = some (some p) → NoLit p

theorem foldl_bmapInsert_mem {le : String → String → Bool} (l : List (String × CompactIri)) (m : List (String × CompactIri))
    (e : String × CompactIri) (h : e ∈ l.foldl (fun acc b => bmapInsert le b.1 b.2 acc) m) : e ∈ l ∨ e ∈ m := by
  induction l generalizing m with
  | nil => exact .inr h
  | cons b l ih =>
    rcases ih _ h with h | h
    · exact .inl (.tail _ h)
    · rcases mem_bmapInsert _ _ _ _ _ h with rfl | h
      · exact .inl (.head _)
      · exact .inr h

theorem typeStep_sat (hl : MacroLib lib) {a : TypeAttrs} (ha : TypeOk a) (t : Tok) (ts : List Tok)
    (hp : ∀ g, [.ident "prefix", .group g] <+: t :: ts → Tok.str "rust" ∉ g) :
    (typeStep lib a t ts).Sat fun r => TypeOk r.1 ∧ r.2 <:+ ts := by
  unfold typeStep
  split
  · rename_i n
    split
    · exact (replace_sat _ _).bind fun _ _ => ⟨{ ha with }, List.suffix_rfl⟩
    · split
      · exact (expectArgument_sat ts fun g _ _ => parseCompactIri_sat g).bind fun v hv => (replace_sat _ _).bind fun x _ =>
          ⟨{ ha with }, hv.2⟩
      split
      · rename_i hn
        subst hn
        refine (expectArgument_sat (P := fun l : List (String × CompactIri) => ∀ e ∈ l, e.1 ≠ "rust") ts
          fun g ts' hts => (parseBindings_sat g).mono fun l hl' e he hr => ?_).bind fun v hv =>
          ⟨{ ha with prefixes := fun e he => ?_ }, hv.2⟩
        · have h1 := hl' e he
          rw [hr] at h1
          subst hts
          exact hp g (by simp) h1
        · rcases foldl_bmapInsert_mem _ _ _ he with h | h
          · exact hv.1 e h
          · exact ha.prefixes e h
      split
      · exact (patternArg_sat hl ts).bind fun v hv => (replace_sat _ _).bind fun x hx =>
          ⟨{ ha with head := fun p h => by cases hx.symm.trans h; exact hv.1 }, hv.2⟩
      split
      · exact (patternArg_sat hl ts).bind fun v hv => (replace_sat _ _).bind fun x hx =>
          ⟨{ ha with tail := fun p h => by cases hx.symm.trans h; exact hv.1 }, hv.2⟩
      split
      · exact (patternArg_sat hl ts).bind fun v hv => (replace_sat _ _).bind fun x hx =>
          ⟨{ ha with resource := fun p h => by cases hx.symm.trans h; exact hv.1 }, hv.2⟩
      split
      · exact (expectArgument_sat ts fun g _ _ => parseCompactIri_sat g).bind fun v hv => (replace_sat _ _).bind fun x _ =>
          ⟨{ ha with }, hv.2⟩
      split
      · exact (expectArgument_sat ts fun g _ _ => parseList_sat stringToken_sat' g).bind fun v hv => (replace_sat _ _).bind fun x _ =>
          ⟨{ ha with }, hv.2⟩
      split
      · exact (expectArgument_sat ts fun g _ _ => parseList_sat stringToken_sat' g).bind fun v hv => (replace_sat _ _).bind fun x _ =>
          ⟨{ ha with }, hv.2⟩
      split
      · exact (expectArgument_sat ts fun g _ _ => parseList_sat (quadToken_sat hl) g).bind fun v hv =>
          (replace_sat _ _).bind fun x hx =>
          ⟨{ ha with dataset := fun p h => by cases hx.symm.trans h; exact hv.1 }, hv.2⟩
      · exact ⟨ha, List.suffix_rfl⟩
  · trivial
where
  stringToken_sat' (t : Tok) : (stringToken t).Sat fun _ => True := (stringToken_sat t).mono fun _ _ => trivial

theorem compStep_sat (hl : MacroLib lib) {a : CompAttrs} (ha : CompOk a) (t : Tok) (ts : List Tok) :
    (compStep lib a t ts).Sat fun r => CompOk r.1 ∧ r.2 <:+ ts := by
  unfold compStep
  split
  · exact (parsePattern_sat hl _).bind fun p hp => (replace_sat _ _).bind fun x hx =>
      ⟨{ ha with property := fun p h => by cases hx.symm.trans h; exact hp }, List.suffix_rfl⟩
  · trivial
  · split
    · exact (expectArgument_sat ts fun g _ _ => parseString_sat g).bind fun v hv => (replace_sat _ _).bind fun x _ =>
        ⟨{ ha with }, hv.2⟩
    split
    · exact (expectArgument_sat ts fun g _ _ => parseString_sat g).bind fun v hv => (replace_sat _ _).bind fun x _ =>
        ⟨{ ha with }, hv.2⟩
    split
    · exact (expectArgument_sat ts fun g _ _ => parseList_sat stringToken_sat' g).bind fun v hv => (replace_sat _ _).bind fun x _ =>
        ⟨{ ha with }, hv.2⟩
    split
    · exact (expectArgument_sat ts fun g _ _ => parseList_sat (quadToken_sat hl) g).bind fun v hv =>
        (replace_sat _ _).bind fun x hx =>
        ⟨{ ha with dataset := fun p h => by cases hx.symm.trans h; exact hv.1 }, hv.2⟩
    split
    · exact (expectArgument_sat ts fun g _ _ => parseList_sat (patternToken_sat hl) g).bind fun v hv =>
        (replace_sat _ _).bind fun x hx =>
        ⟨{ ha with input := fun p h => by cases hx.symm.trans h; exact hv.1 }, hv.2⟩
    split
    · exact (expectArgument_sat ts fun g _ _ => parseGraph_sat hl g).bind fun v hv =>
        (replace_sat _ _).bind fun x hx =>
        ⟨{ ha with graph := fun g p h => by cases hx.symm.trans h; exact hv.1 p }, hv.2⟩
    · exact ⟨ha, List.suffix_rfl⟩
  · trivial
where
  stringToken_sat' (t : Tok) : (stringToken t).Sat fun _ => True := (stringToken_sat t).mono fun _ _ => trivial

theorem attrLoop_sat {α : Type} {step : α → Tok → List Tok → Out MacroError (α × List Tok)} {P : α → Prop} (all : List Tok)
    (hstep : ∀ a t ts, P a → t :: ts <:+ all → (step a t ts).Sat fun r => P r.1 ∧ r.2 <:+ ts) :
    ∀ (n : Nat) (a : α) (ts : List Tok), P a → ts <:+ all → ts.length ≤ n → (attrLoop step n a ts).Sat P := by
  intro n
  induction n with
  | zero =>
    intro a ts ha hs hn
    cases ts with
    | nil => simp only [attrLoop]; exact ha
    | cons t ts => simp at hn
  | succ n ih =>
    intro a ts ha hs hn
    cases ts with
    | nil => simp only [attrLoop]; exact ha
    | cons t ts =>
      simp only [attrLoop]
      refine (hstep a t ts ha hs).bind fun r hr => ?_
      obtain ⟨a', rest⟩ := r
      obtain ⟨h1, h2⟩ := hr
      dsimp only at h1 h2 ⊢
      split
      · exact h1
      · rename_i ts'
        have h3 : ts' <:+ ts := (List.suffix_cons _ _).trans h2
        refine ih a' ts' h1 ((h3.trans (List.suffix_cons _ _)).trans hs) ?_
        have := h3.length_le
        simp only [List.length_cons] at hn
        omega
      · trivial

theorem parseAttrs_sat {α : Type} {step : α → Tok → List Tok → Out MacroError (α × List Tok)} {P : α → Prop} :
    ∀ (attrs : List RAttr) (a : α), P a →
    (∀ attr ∈ attrs, attr.path = "tldr" → ∀ all, attr.tokens = some all → ∀ a t ts, P a → t :: ts <:+ all →
      (step a t ts).Sat fun r => P r.1 ∧ r.2 <:+ ts) → (parseAttrs step attrs a).Sat P := by
  intro attrs
  induction attrs with
  | nil => exact fun a ha _ => ha
  | cons attr attrs ih =>
    intro a ha h
    simp only [parseAttrs]
    split
    · rename_i hp
      split
      · rename_i ts hts
        exact (attrLoop_sat ts (h attr (.head _) hp ts hts) _ _ _ ha List.suffix_rfl (Nat.le_refl _)).bind fun a' ha' =>
          ih a' ha' fun x hx => h x (.tail _ hx)
      · trivial
    · exact ih a ha fun x hx => h x (.tail _ hx)

theorem typeAttrs_sat (hl : MacroLib lib) {attrs : List RAttr} (hp : ¬ PrefixesRust attrs) :
    (parseAttrs (typeStep lib) attrs {}).Sat TypeOk := by
  refine parseAttrs_sat attrs ({} : TypeAttrs) ⟨rfl, by simp, by simp, by simp, by simp, by simp⟩ fun attr hm hpath all hall a t ts ha hs =>
    typeStep_sat hl ha t ts fun g hg hr => hp ⟨attr, hm, hpath, all, g, hall, ?_, hr⟩
  exact (hg.isInfix).trans hs.isInfix

theorem compAttrs_sat (hl : MacroLib lib) (attrs : List RAttr) : (parseAttrs (compStep lib) attrs {}).Sat CompOk :=
  parseAttrs_sat attrs ({} : CompAttrs) ⟨by simp, by simp, by simp, by simp⟩ fun _ _ _ _ _ _ t ts ha _ => compStep_sat hl ha t ts

/-! ## Types -/

/-- The list of patterns has no literals. -/
def OneOrManyNoLit (l : OneOrMany SPattern) : Prop := ∀ p ∈ l.asSlice, NoLit p

/-- The value is of the type `t`, one of `types`. -/
def FormatOk (types : List RType) (t : RType) : SFormat → Prop
  | .format (.ref i) input graph => (∃ k : Nat, i = typeIri k ∧ types[k]? = some t) ∧ OneOrManyNoLit input ∧
      ∀ p, graph = some (some p) → NoLit p
  | _ => False

/-- See `FormatOk`. -/
def FieldOk (types : List RType) (t : RType) : SField → Prop
  | .mk _ value ds property _ => FormatOk types t value ∧ (∀ q ∈ ds, QuadNoLit q) ∧ ∀ p, property = some p → NoLit p

/-- See `FormatOk`. -/
def VariantOk (types : List RType) (t : RType) : SVariant → Prop
  | .mk _ value ds => FormatOk types t value ∧ ∀ q ∈ ds, QuadNoLit q

/-- See `FormatOk`. -/
def ItemOk (types : List RType) (t : RType) : SItem → Prop
  | .mk _ value ds property => FormatOk types t value ∧ (∀ q ∈ ds, QuadNoLit q) ∧ ∀ p, property = some p → NoLit p

/-- See `FormatOk`. -/
def NodeOk (types : List RType) (t : RType) : SNode → Prop
  | .node _ _ _ value ds => FormatOk types t value ∧ ∀ ds', ds = some ds' → ∀ q ∈ ds', QuadNoLit q
  | _ => False

theorem oneOrMany_asSlice {α : Type} (l : List α) : (oneOrMany l).asSlice = l := by
  unfold oneOrMany
  split <;> rfl

theorem value_ok {a : CompAttrs} (ha : CompOk a) (default : String) {types : List RType} {i : Nat} {t : RType}
    (ht : types[i]? = some t) : FormatOk types t (a.value default i) := by
  refine ⟨⟨i, rfl, ht⟩, fun p hp => ?_, fun p hp => ?_⟩
  · cases hi : a.input with
    | none =>
      simp only [hi, Option.map_none, Option.getD_none, OneOrMany.asSlice, List.mem_singleton] at hp
      subst hp
      trivial
    | some ps =>
      simp only [hi, Option.map_some, Option.getD_some, oneOrMany_asSlice] at hp
      exact ha.input ps hi p hp
  · cases hg : a.graph with
    | none => rw [hg] at hp; cases hp
    | some g =>
      rw [hg] at hp
      exact ha.graph g p hg hp

theorem dataset_ok {a : CompAttrs} (ha : CompOk a) : ∀ q ∈ a.dataset.getD [], QuadNoLit q := by
  cases h : a.dataset with
  | none => simp
  | some ds => exact ha.dataset ds h

theorem fieldType_content (t : RType) : Content t (fieldType t).1 := by
  unfold fieldType
  split
  · exact .option _
  · rename_i h
    exact .other _ fun u hu => h u hu

theorem getElem_prefix {l l' : List RType} {t : RType} (h : l ++ [t] <+: l') : l'[l.length]? = some t := by
  obtain ⟨m, rfl⟩ := h
  simp

theorem parseFields_sat (hl : MacroLib lib) : ∀ (fs : List (String × List RAttr × RType)) (ts : List RType),
    (parseFields lib fs ts).Sat fun r => ts <+: r.2 ∧ r.1.map (·.1) = fs.map (·.1) ∧
      ∀ e ∈ r.1, ∃ attrs ty t, (e.1, attrs, ty) ∈ fs ∧ Content ty t ∧ FieldOk r.2 t e.2
  | [], ts => ⟨List.prefix_rfl, rfl, by simp⟩
  | (name, attrs, ty) :: fs, ts => by
    refine (compAttrs_sat hl attrs).bind fun a ha => (parseFields_sat hl fs _).bind fun r hr => ?_
    obtain ⟨h1, h2, h3⟩ := hr
    refine ⟨(List.prefix_append _ _).trans h1, by simp [h2], ?_⟩
    intro e he
    rcases List.mem_cons.1 he with rfl | he
    · exact ⟨attrs, ty, _, .head _, fieldType_content ty, value_ok ha _ (getElem_prefix h1), dataset_ok ha, ha.property⟩
    · obtain ⟨x, y, t, h4, h5⟩ := h3 e he
      exact ⟨x, y, t, .tail _ h4, h5⟩

theorem parseVariants_sat (hl : MacroLib lib) : ∀ (vs : List (String × List RAttr × RFields)) (ts : List RType),
    (parseVariants lib vs ts).Sat fun r => ts <+: r.2 ∧ r.1.map (·.1) = vs.map (·.1) ∧
      ∀ e ∈ r.1, ∃ attrs a t, (e.1, attrs, .unnamed [(a, t)]) ∈ vs ∧ VariantOk r.2 t e.2
  | [], ts => ⟨List.prefix_rfl, rfl, by simp⟩
  | (name, attrs, fields) :: vs, ts => by
    simp only [parseVariants]
    refine (compAttrs_sat hl attrs).bind fun a ha => ?_
    split
    · refine (parseVariants_sat hl vs _).bind fun r hr => ?_
      obtain ⟨h1, h2, h3⟩ := hr
      refine ⟨(List.prefix_append _ _).trans h1, by simp [h2], ?_⟩
      intro e he
      rcases List.mem_cons.1 he with rfl | he
      · exact ⟨attrs, _, _, .head _, value_ok ha _ (getElem_prefix h1), dataset_ok ha⟩
      · obtain ⟨x, y, t, h4, h5⟩ := h3 e he
        exact ⟨x, y, t, .tail _ h4, h5⟩
    · trivial
    · trivial

theorem parseItems_sat (hl : MacroLib lib) : ∀ (fs : List (List RAttr × RType)) (ts : List RType),
    (parseItems lib fs ts).Sat fun r => ts <+: r.2 ∧ List.Forall₂ (fun f i => ItemOk r.2 f.2 i) fs r.1
  | [], ts => ⟨List.prefix_rfl, .nil⟩
  | (attrs, ty) :: fs, ts => by
    refine (compAttrs_sat hl attrs).bind fun a ha => (parseItems_sat hl fs _).bind fun r hr => ?_
    obtain ⟨h1, h2⟩ := hr
    exact ⟨(List.prefix_append _ _).trans h1, .cons ⟨value_ok ha _ (getElem_prefix h1), dataset_ok ha, ha.property⟩ h2⟩

/-- What is known of the header of a derived layout. -/
structure HeaderOk (h : LayoutHeader) : Prop where
  id : h.id = none
  prefixes : ∀ e ∈ h.prefixes, e.1 ≠ "rust"
  dataset : ∀ q ∈ h.dataset, QuadNoLit q

theorem header_ok {a : TypeAttrs} (ha : TypeOk a) : HeaderOk a.header where
  id := ha.id
  prefixes := ha.prefixes
  dataset := by
    change ∀ q ∈ a.dataset.getD [], QuadNoLit q
    cases h : a.dataset with
    | none => simp
    | some ds => exact ha.dataset ds h

/-- What is known of a derived layout, and of the type it was derived from. -/
def LayoutOk (data : RData) (types : List RType) : SLayout → Prop
  | .unit h _ => HeaderOk h
  | .boolean h r _ => HeaderOk h ∧ ∀ p, r = some p → NoLit p
  | .number h r _ => HeaderOk h ∧ ∀ p, r = some p → NoLit p
  | .byteString h r _ => HeaderOk h ∧ ∀ p, r = some p → NoLit p
  | .textString h e r _ => HeaderOk h ∧ e = none ∧ ∀ p, r = some p → NoLit p
  | .id h e r => HeaderOk h ∧ e = none ∧ ∀ p, r = some p → NoLit p
  | .product h fields => HeaderOk h ∧ ∃ fs, data = .struct (.named fs) ∧ (∀ f ∈ fs, ∃ x, (Value.text f.1, x) ∈ fields) ∧
      ∀ e ∈ fields, ∃ n attrs ty t, e.1 = .text n ∧ (n, attrs, ty) ∈ fs ∧ Content ty t ∧ FieldOk types t e.2
  | .sum h variants => HeaderOk h ∧ ∃ vs, data = .enum vs ∧ (∀ v ∈ vs, ∃ x, (v.1, x) ∈ variants) ∧
      ∀ e ∈ variants, ∃ attrs a t, (e.1, attrs, .unnamed [(a, t)]) ∈ vs ∧ VariantOk types t e.2
  | .ordered h node head tail => HeaderOk h ∧ NoLit head ∧ NoLit tail ∧
      ∃ attrs t, data = .struct (.unnamed [(attrs, .path [] "Vec" [t])]) ∧ NodeOk types t node
  | .unordered h item => HeaderOk h ∧
      ∃ attrs t, data = .struct (.unnamed [(attrs, .path [] "Vec" [t])]) ∧ ItemOk types t item
  | .sized h items => HeaderOk h ∧ ∃ fs, data = .struct (.unnamed fs) ∧ List.Forall₂ (fun f i => ItemOk types f.2 i) fs items
  | _ => False

theorem collect_mem {α : Type} (l : List (String × α)) : ∀ e ∈ collect l, e ∈ l := by
  unfold collect
  have : ∀ (l m : List (String × α)), ∀ e ∈ l.foldl (fun m e => bmapInsert strLe e.1 e.2 m) m, e ∈ l ∨ e ∈ m := by
    intro l
    induction l with
    | nil => exact fun m e he => .inr he
    | cons b l ih =>
      intro m e he
      rcases ih _ e he with h | h
      · exact .inl (.tail _ h)
      · rcases mem_bmapInsert _ _ _ _ _ h with rfl | h
        · exact .inl (.head _)
        · exact .inr h
  intro e he
  rcases this l [] e he with h | h
  · exact h
  · cases h

theorem collect_key {α : Type} (l : List (String × α)) : ∀ k ∈ l.map (·.1), ∃ x, (k, x) ∈ collect l := by
  unfold collect
  have : ∀ (l m : List (String × α)) k, (k ∈ l.map (·.1) ∨ ∃ x, (k, x) ∈ m) →
      ∃ x, (k, x) ∈ l.foldl (fun m e => bmapInsert strLe e.1 e.2 m) m := by
    intro l
    induction l with
    | nil =>
      intro m k h
      rcases h with h | h
      · cases h
      · exact h
    | cons b l ih =>
      intro m k h
      refine ih _ k ?_
      rcases h with h | h
      · rcases List.mem_cons.1 h with rfl | h
        · exact .inr ⟨_, bmapInsert_self _ _ _ _⟩
        · exact .inl h
      · exact .inr (bmapInsert_keeps_key _ _ _ _ _ h)
  exact fun k hk => this l [] k (.inl hk)

theorem oneField_sat (data : RData) : (oneField data).Sat fun f => data = .struct (.unnamed [f]) := by
  unfold oneField
  split
  · rfl
  · trivial
  · trivial
  · trivial

theorem extractVecItem_sat (t : RType) : (extractVecItem t).Sat fun u => t = .path [] "Vec" [u] := by
  unfold extractVecItem
  split
  · rfl
  · trivial

theorem parseKind_sat (hl : MacroLib lib) {a : TypeAttrs} (ha : TypeOk a) (data : RData) (k : Kind) :
    (parseKind lib a data k).Sat fun r => LayoutOk data r.2 r.1 := by
  unfold parseKind
  split
  · exact ⟨header_ok ha, rfl, ha.resource⟩
  · exact header_ok ha
  · exact ⟨header_ok ha, ha.resource⟩
  · split
    · exact ⟨header_ok ha, ha.resource⟩
    · trivial
  · exact ⟨header_ok ha, rfl, ha.resource⟩
  · split
    · exact ⟨header_ok ha, ha.resource⟩
    · trivial
  · split
    · rename_i fs
      refine (parseFields_sat hl fs []).bind fun r hr => ⟨header_ok ha, fs, rfl, fun f hf => ?_, fun e he => ?_⟩
      · obtain ⟨x, hx⟩ := collect_key r.1 f.1 (by rw [hr.2.1]; exact List.mem_map_of_mem hf)
        exact ⟨x, List.mem_map.2 ⟨_, hx, rfl⟩⟩
      · obtain ⟨e', he', rfl⟩ := List.mem_map.1 he
        obtain ⟨attrs, ty, t, h⟩ := hr.2.2 e' (collect_mem _ _ he')
        exact ⟨_, attrs, ty, t, rfl, h⟩
    · trivial
    · trivial
  · split
    · rename_i vs
      refine (parseVariants_sat hl vs []).bind fun r hr => ⟨header_ok ha, vs, rfl, fun v hv => ?_, fun e he => ?_⟩
      · exact collect_key r.1 v.1 (by rw [hr.2.1]; exact List.mem_map_of_mem hv)
      · exact hr.2.2 e (collect_mem _ _ he)
    · trivial
  · refine (oneField_sat data).bind fun f hf => (compAttrs_sat hl f.1).bind fun i hi => (extractVecItem_sat f.2).bind fun ty hty =>
      ⟨header_ok ha, f.1, ty, ?_, value_ok hi _ rfl, dataset_ok hi, hi.property⟩
    rw [hf, ← hty]
  · refine (oneField_sat data).bind fun f hf => (compAttrs_sat hl f.1).bind fun i hi => (extractVecItem_sat f.2).bind fun ty hty =>
      ⟨header_ok ha, ?_, ?_, f.1, ty, ?_, value_ok hi _ rfl, hi.dataset⟩
    · cases h : a.head with
      | none => trivial
      | some p => exact ha.head p h
    · cases h : a.tail with
      | none => trivial
      | some p => exact ha.tail p h
    · rw [hf, ← hty]
  · split
    · rename_i fs
      exact (parseItems_sat hl fs []).bind fun r hr => ⟨header_ok ha, fs, rfl, hr.2⟩
    · trivial
    · trivial

theorem parseItem_sat (hl : MacroLib lib) {item : RItem} (hp : ¬ PrefixesRust item.attrs) :
    (parseItem lib item).Sat fun r => LayoutOk item.data r.2 r.1 := by
  refine (typeAttrs_sat hl hp).bind fun a ha => ?_
  split
  · exact parseKind_sat hl ha _ _
  · refine Sat.bind (P := fun _ => True) ?_ fun k _ => parseKind_sat hl ha _ k
    unfold Kind.ofData
    split <;> trivial

/-! ## Compilation and emission -/

/-- The computation does not change the builder, and its outcome is a value with the property or an error. -/
def SatM {R α : Type} (P : α → Prop) (x : BuildM R α) : Prop := ∀ b, (x b).1.Sat P ∧ (x b).2 = b

theorem SatM.bind {R α β : Type} {x : BuildM R α} {f : α → BuildM R β} {P : α → Prop} {Q : β → Prop} (hx : SatM P x)
    (hf : ∀ a, P a → SatM Q (f a)) : SatM Q (x.bind f) := by
  intro b
  have h := hx b
  unfold BuildM.bind
  rcases hxb : x b with ⟨o, b'⟩
  rw [hxb] at h
  obtain ⟨h1, h2⟩ := h
  dsimp only at h2
  subst h2
  cases o with
  | ok a => exact hf a h1 _
  | err e => exact ⟨trivial, rfl⟩
  | panic => exact absurd h1 id
  | fuel => exact absurd h1 id

theorem SatM.lift {R α : Type} {x : Out BuildError α} {P : α → Prop} (h : x.Sat P) : SatM P (BuildM.lift x : BuildM R α) :=
  fun _ => ⟨h, rfl⟩

theorem SatM.pure {R α : Type} {a : α} {P : α → Prop} (h : P a) : SatM P (BuildM.pure a : BuildM R α) := fun _ => ⟨h, rfl⟩

/-- The prefix `rust` is not defined. -/
def ScopeOk (s : Scope) : Prop := ∀ e ∈ s.prefixes, e.1 ≠ "rust"

theorem withIntro_prefixes (s : Scope) (l : List String) : (s.withIntro l).prefixes = s.prefixes := by
  unfold Scope.withIntro
  induction l generalizing s with
  | nil => rfl
  | cons x l ih => exact (ih (s.bind x)).trans rfl

theorem scopeOk_intro {s : Scope} (h : ScopeOk s) (l : List String) : ScopeOk (s.withIntro l) := by
  unfold ScopeOk
  rw [withIntro_prefixes]
  exact h

section
variable {c : BuildCtx Term} (hiri : c.iri = Term.iri)
include hiri

theorem resolve_sat (lib : IriLib) (s : Scope) (i : CompactIri) : (CompactIri.resolve lib s i).Sat fun _ => True :=
  .of_clean (clean_resolve lib s i) fun _ _ => trivial

theorem pattern_emits {p : SPattern} (hp : NoLit p) (s : Scope) : (p.build c s).Sat fun p' => emitPattern p' = .ok () := by
  cases p with
  | var x => exact (Sat.of_clean (P := fun _ => True) (clean_index s x) fun _ _ => trivial).bind fun i _ => rfl
  | iri i =>
    refine (resolve_sat hiri c.lib s i).bind fun i' _ => ?_
    rw [hiri]
    rfl
  | literal v ty => exact absurd hp id

/-- The patterns of the quad are emitted. -/
def QuadEmits (q : QuadPat Term) : Prop :=
  emitPattern q.s = .ok () ∧ emitPattern q.p = .ok () ∧ emitPattern q.o = .ok () ∧ emitGraphOpt q.g = .ok ()

omit hiri in
theorem emitEach_ok {α : Type} {f : α → Out EmitError Unit} {l : List α} (h : ∀ a ∈ l, f a = .ok ()) : emitEach f l = .ok () := by
  induction l with
  | nil => rfl
  | cons a l ih => simp only [emitEach, h a (.head _), Out.bind_ok, ih fun x hx => h x (.tail _ hx)]

omit hiri in
theorem emitDataset_ok {ds : List (QuadPat Term)} (h : ∀ q ∈ ds, QuadEmits q) : emitDataset ds = .ok () := by
  refine emitEach_ok fun q hq => ?_
  obtain ⟨h1, h2, h3, h4⟩ := h q hq
  simp only [h1, h2, h3, h4, Out.bind_ok]

theorem quad_emits {q : Quad SPattern} (hq : QuadNoLit q) (s : Scope) : (SQuad.build c s q).Sat QuadEmits := by
  obtain ⟨h1, h2, h3, h4⟩ := hq
  refine (pattern_emits hiri h1 s).bind fun a ha => (pattern_emits hiri h2 s).bind fun b hb => (pattern_emits hiri h3 s).bind fun d hd =>
    Sat.bind (P := fun g => emitGraphOpt g = .ok ()) ?_ fun g hg => ⟨ha, hb, hd, hg⟩
  cases hg : q.g with
  | none => rfl
  | some g => exact (pattern_emits hiri (h4 g hg) s).bind fun p hp => hp

theorem dataset_emits (s : Scope) : ∀ {ds : List (Quad SPattern)} (acc : List (QuadPat Term)), (∀ q ∈ ds, QuadNoLit q) →
    (∀ q ∈ acc, QuadEmits q) → (SDataset.build c s ds acc).Sat fun ds' => ∀ q ∈ ds', QuadEmits q
  | [], acc, _, ha => ha
  | q :: qs, acc, h, ha => by
    refine (quad_emits hiri (h q (.head _)) s).bind fun q' hq' => dataset_emits s _ (fun x hx => h x (.tail _ hx)) fun x hx => ?_
    rcases (mem_dsInsert _ _ _ _).1 hx with rfl | hx
    · exact hq'
    · exact ha x hx

theorem dataset_emits' (s : Scope) {ds : List (Quad SPattern)} (h : ∀ q ∈ ds, QuadNoLit q) :
    (SDataset.build c s ds []).Sat fun ds' => ∀ q ∈ ds', QuadEmits q := dataset_emits hiri s [] h (by simp)

theorem header_emits {h : LayoutHeader} (hh : HeaderOk h) {s : Scope} (hs : ScopeOk s) :
    (h.build c s).Sat fun b => (∀ q ∈ b.dataset, QuadEmits q) ∧ ScopeOk b.scope := by
  refine Sat.bind (P := ScopeOk) ?_ fun s' hs' => (dataset_emits' hiri s' hh.dataset).bind fun ds hds =>
    (Sat.of_clean (P := fun _ => True) (clean_extra c s' h.extra []) fun _ _ => trivial).bind fun ps _ => ⟨hds, hs'⟩
  refine Sat.bind (P := fun _ => True) ?_ fun base _ => Sat.bind (P := fun ps => ∀ e ∈ ps, e.1 ≠ "rust") ?_ fun ps hps => ?_
  · cases h.base with
    | none => trivial
    | some b => exact (resolve_sat hiri c.lib s b).bind fun _ _ => trivial
  · have : ∀ (ps : List (String × CompactIri)) (acc : List (String × String)), (∀ e ∈ ps, e.1 ≠ "rust") → (∀ e ∈ acc, e.1 ≠ "rust") →
        (s.newPrefixes c.lib ps acc).Sat fun ps => ∀ e ∈ ps, e.1 ≠ "rust" := by
      intro ps
      induction ps with
      | nil => exact fun acc _ ha => ha
      | cons e ps ih =>
        intro acc h1 h2
        refine (resolve_sat hiri c.lib s e.2).bind fun i _ => ih _ (fun x hx => h1 x (.tail _ hx)) fun x hx => ?_
        rcases List.mem_cons.1 hx with rfl | hx
        · exact h1 e (.head _)
        · exact h2 x hx
    exact this h.prefixes s.prefixes hh.prefixes hs
  · exact scopeOk_intro (s := { s with baseIri := base, prefixes := ps }) hps _

theorem literalResource_emits {r : Option SPattern} (hr : ∀ p, r = some p → NoLit p) (s : Scope) (input : OneOrMany String) :
    (literalResource c s input r).Sat fun p => emitPattern p = .ok () := by
  cases r with
  | some p => exact pattern_emits hiri (hr p rfl) s
  | none =>
    unfold literalResource
    dsimp only
    split
    · trivial
    · rfl

omit hiri in
theorem emitTarget_ok {p : Pattern Term} (h : emitPattern p = .ok ()) : emitTarget p = .ok () := by
  match p with
  | .var _ => rfl
  | .res (.iri _) => rfl
  | .res (.blank _) => rfl
  | .res (.literal l) => exact h

theorem iri_emits (s : Scope) (i : CompactIri) : (CompactIri.build c s i).Sat fun r => emitDatatype r = .ok () := by
  refine (resolve_sat hiri c.lib s i).bind fun i' _ => ?_
  rw [hiri]
  rfl

theorem datatype_emits (s : Scope) (d : String) (i : Option CompactIri) :
    (buildDatatype c s d i).Sat fun r => emitDatatype r = .ok () := by
  cases i with
  | some i => exact iri_emits hiri s i
  | none =>
    change emitDatatype (c.iri d) = .ok ()
    rw [hiri]
    rfl

omit hiri in
theorem emitData_ok (de : Bool) {l : DataLayout Term} (h1 : ∀ q ∈ l.dataset, QuadEmits q) (h2 : emitPattern l.resource = .ok ())
    (h3 : emitDatatype l.datatype = .ok ()) : emitData de l = .ok .nothing := by
  unfold emitData
  cases de <;> simp [emitDataset_ok h1, h2, h3, emitTarget_ok h2]

omit hiri in
theorem typeIri_inj {i j : Nat} (h : typeIri i = typeIri j) : i = j := by
  have : ∀ {a b p : String}, p ++ a = p ++ b → a = b := fun {a b p} h => by
    have := congrArg String.toList h
    simp only [String.toList_append, List.append_cancel_left_eq] at this
    exact String.toList_inj.1 this
  exact toString_inj (this h)

omit hiri in
theorem typeAt_eq (types : List RType) (i k : Nat) : typeAt i types (typeIri (i + k)) = types[k]? := by
  induction types generalizing i k with
  | nil => simp [typeAt]
  | cons t ts ih =>
    simp only [typeAt]
    cases k with
    | zero => simp
    | succ k =>
      rw [if_neg fun h => by have := typeIri_inj h; omega]
      have := ih (i + 1) k
      rw [show i + 1 + k = i + (k + 1) by omega] at this
      simpa using this

omit hiri in
theorem typeIri_scheme (k : Nat) : iriScheme (typeIri k) = "rust" := by
  have h : (typeIri k).toList = 'r' :: 'u' :: 's' :: 't' :: ':' :: '/' :: '#' :: 'T' :: 'y' :: 'p' :: 'e' :: (toString k).toList := by
    unfold typeIri
    rw [String.toList_append]
    rfl
  unfold iriScheme
  rw [h]
  rfl

theorem ref_emits (hl : MacroLib c.lib) {types : List RType} {t : RType} {k : Nat} (hk : types[k]? = some t) {s : Scope}
    (hs : ScopeOk s) : SatM (fun r => emitType types r = .ok t) (SLayoutRef.build c (.ref (typeIri k)) s) := by
  refine SatM.lift (Sat.bind (P := fun i => i = typeIri k) ?_ fun i hi => ?_)
  · have h1 : c.lib.isIri (typeIri k) = true := hl.typeIri k
    have h2 : s.withoutVariables.prefixes.lookup (iriScheme (typeIri k)) = none := by
      rw [typeIri_scheme]
      refine List.lookup_eq_none_iff.2 fun e he => ?_
      exact bne_iff_ne.2 fun h => hs e he h.symm
    simp only [CompactIri.resolve, h1, h2, if_true]
    rfl
  · subst hi
    change emitType types (c.iri (typeIri k)) = .ok t
    rw [hiri]
    have := typeAt_eq types 0 k
    rw [Nat.zero_add] at this
    simp only [emitType, this, hk, Out.ofOption_some]

theorem inputs_emit (s : Scope) (l : List SPattern) (h : ∀ p ∈ l, NoLit p) :
    (buildInputs c s l).Sat fun l' => ∀ p ∈ l', emitPattern p = .ok () := by
  unfold buildInputs
  induction l with
  | nil => exact fun p hp => by cases hp
  | cons p l ih =>
    refine (pattern_emits hiri (h p (.head _)) s).bind fun p' hp' => (ih fun x hx => h x (.tail _ hx)).bind fun l' hl' => ?_
    intro x hx
    rcases List.mem_cons.1 hx with rfl | hx
    · exact hp'
    · exact hl' x hx

/-- The value is emitted with the type. -/
def ValueEmits (types : List RType) (t : RType) (v : ValueFormat Term) : Prop :=
  (∀ p ∈ v.input, emitPattern p = .ok ()) ∧ emitGraph v.graph = .ok () ∧ emitType types v.layout = .ok t

omit hiri in
theorem emitValue_ok {types : List RType} {t : RType} {v : ValueFormat Term} {ds : List (QuadPat Term)} (h1 : ∀ q ∈ ds, QuadEmits q)
    (h : ValueEmits types t v) : emitValue types ds v = .ok t := by
  simp only [emitValue, emitDataset_ok h1, emitEach_ok h.1, h.2.1, h.2.2, Out.bind_ok]

theorem format_emits (hl : MacroLib c.lib) {types : List RType} {t : RType} {f : SFormat} (hf : FormatOk types t f) (default : String)
    {s : Scope} (hs : ScopeOk s) : SatM (ValueEmits types t) (f.build c default s) := by
  match f, hf with
  | .format (.ref i) input graph, hf =>
    obtain ⟨⟨k, rfl, hk⟩, h2, h3⟩ := hf
    simp only [SFormat.build]
    refine (SatM.lift (inputs_emit hiri s _ h2)).bind fun ins hins => (ref_emits hiri hl hk hs).bind fun r hr =>
      (SatM.lift (P := fun g => emitGraph g = .ok ()) ?_).bind fun g hg => .pure ⟨hins, hg, hr⟩
    match graph, h3 with
    | none, _ => rfl
    | some none, _ => rfl
    | some (some p), h3 => exact (pattern_emits hiri (h3 p rfl) s).bind fun p' hp' => hp'

theorem propDataset_emits (s : Scope) (a b : Option Nat) {ds : List (Quad SPattern)} (hds : ∀ q ∈ ds, QuadNoLit q)
    {p : Option SPattern} (hp : ∀ p', p = some p' → NoLit p') :
    (buildPropDataset c s a b ds p).Sat fun ds' => ∀ q ∈ ds', QuadEmits q := by
  cases p with
  | none => exact dataset_emits' hiri s hds
  | some p =>
    refine (dataset_emits' hiri s hds).bind fun ds' hds' => ?_
    cases a with
    | none => trivial
    | some a =>
      cases b with
      | none => trivial
      | some b =>
        refine (pattern_emits hiri (hp p rfl) s).bind fun p' hp' => ?_
        intro q hq
        rcases (mem_dsInsert _ _ _ _).1 hq with rfl | hq
        · exact ⟨rfl, hp', rfl, rfl⟩
        · exact hds' q hq

omit hiri in
theorem emitIdent_ok {n : String} (h : ¬ RawName n) : emitIdent n = .ok () := by
  unfold emitIdent
  rw [if_neg]
  intro hs
  simp only [startsWith] at hs
  obtain ⟨l, hl⟩ := List.isPrefixOf_iff_prefix.1 hs
  exact h ⟨String.ofList l, by rw [← String.toList_inj, String.toList_append]; simpa using hl.symm⟩

theorem fields_emit (hl : MacroLib c.lib) (types : List RType) (a : Option Nat) (n : Nat) {s : Scope} (hs : ScopeOk s) (P : String → RType → Prop) :
    ∀ (fs : List (Value × SField)), (∀ e ∈ fs, ∃ m t, e.1 = .text m ∧ ¬ RawName m ∧ P m t ∧ FieldOk types t e.2) →
    SatM (fun fs' => (emitFields types fs').Sat fun l => (∀ e ∈ l, P e.1 e.2) ∧ ∀ m x, (Value.text m, x) ∈ fs → ∃ t, (m, t) ∈ l)
      (buildFields c a n fs s)
  | [], _ => .pure ⟨by simp, by simp⟩
  | (k, f) :: fs, h => by
    obtain ⟨m, t, hm, hraw, hP, hf⟩ := h _ (.head _)
    obtain ⟨intro, value, ds, property, required⟩ := f
    obtain ⟨h1, h2, h3⟩ := hf
    dsimp only at hm
    subst hm
    simp only [buildFields, SField.build]
    refine SatM.bind (P := fun f' : Field Term => emitValue types f'.dataset f'.value = .ok t)
      ((SatM.lift (propDataset_emits hiri _ _ _ h2 h3)).bind fun ds' hds' =>
        (format_emits hiri hl h1 _ (scopeOk_intro hs _)).bind fun v hv => .pure (emitValue_ok hds' hv)) fun f' hf' =>
      (fields_emit hl types a n hs P fs fun e he => h e (.tail _ he)).bind fun fs' hfs' => .pure ?_
    simp only [emitFields, fieldName, Out.bind_ok, emitIdent_ok hraw, hf', Value.text]
    refine hfs'.bind fun l hl' => ⟨?_, ?_⟩
    · intro e he
      rcases List.mem_cons.1 he with rfl | he
      · exact hP
      · exact hl'.1 e he
    · intro m' x hx
      rcases List.mem_cons.1 hx with he | hx
      · injection he with he _
        injection he with he
        injection he with he
        subst he
        exact ⟨t, .head _⟩
      · obtain ⟨t', ht'⟩ := hl'.2 m' x hx
        exact ⟨t', .tail _ ht'⟩

theorem variants_emit (hl : MacroLib c.lib) (types : List RType) {s : Scope} (hs : ScopeOk s) (P : String → RType → Prop) :
    ∀ (vs : List (String × SVariant)), (∀ e ∈ vs, ∃ t, ¬ RawName e.1 ∧ P e.1 t ∧ VariantOk types t e.2) →
    SatM (fun vs' => (emitVariants types vs').Sat fun l => (∀ e ∈ l, P e.1 e.2) ∧ ∀ m x, (m, x) ∈ vs → ∃ t, (m, t) ∈ l)
      (buildVariants c vs s)
  | [], _ => .pure ⟨by simp, by simp⟩
  | (k, v) :: vs, h => by
    obtain ⟨t, hraw, hP, hv⟩ := h _ (.head _)
    obtain ⟨intro, value, ds⟩ := v
    obtain ⟨h1, h2⟩ := hv
    simp only [buildVariants, SVariant.build]
    refine SatM.bind (P := fun v' : Variant Term => v'.name = k ∧ emitValue types v'.dataset v'.value = .ok t)
      ((format_emits hiri hl h1 _ (scopeOk_intro hs _)).bind fun v hv =>
        (SatM.lift (dataset_emits' hiri _ h2)).bind fun ds' hds' => .pure ⟨rfl, emitValue_ok hds' hv⟩) fun v' hv' =>
      (variants_emit hl types hs P vs fun e he => h e (.tail _ he)).bind fun vs' hvs' => .pure ?_
    simp only [emitVariants, hv'.1, Out.bind_ok, emitIdent_ok hraw, hv'.2]
    refine hvs'.bind fun l hl' => ⟨?_, ?_⟩
    · intro e he
      rcases List.mem_cons.1 he with rfl | he
      · exact hP
      · exact hl'.1 e he
    · intro m' x hx
      rcases List.mem_cons.1 hx with he | hx
      · injection he with he _
        subst he
        exact ⟨t, .head _⟩
      · obtain ⟨t', ht'⟩ := hl'.2 m' x hx
        exact ⟨t', .tail _ ht'⟩

theorem item_emits (hl : MacroLib c.lib) (types : List RType) (a : Option Nat) {s : Scope} (hs : ScopeOk s) {t : RType} {i : SItem}
    (hi : ItemOk types t i) : SatM (fun i' => emitValue types i'.dataset i'.value = .ok t) (i.build c a s) := by
  obtain ⟨intro, value, ds, property⟩ := i
  obtain ⟨h1, h2, h3⟩ := hi
  simp only [SItem.build]
  exact (SatM.lift (propDataset_emits hiri _ _ _ h2 h3)).bind fun ds' hds' =>
    (format_emits hiri hl h1 _ (scopeOk_intro hs _)).bind fun v hv => .pure (emitValue_ok hds' hv)

theorem items_emit (hl : MacroLib c.lib) (types : List RType) (a : Option Nat) {s : Scope} (hs : ScopeOk s)
    {fs : List (List RAttr × RType)} {is : List SItem} (h : List.Forall₂ (fun f i => ItemOk types f.2 i) fs is) :
    SatM (fun is' => emitItems types is' = .ok (fs.map (·.2))) (buildItems c a is s) := by
  induction h with
  | nil => exact .pure rfl
  | cons hi _ ih =>
    simp only [buildItems]
    refine (item_emits hiri hl types a hs hi).bind fun i' hi' => ih.bind fun is' his' => .pure ?_
    simp only [emitItems, hi', his', Out.bind_ok, List.map_cons]

theorem listDataset_emits (head rest : Nat) {first : Pattern Term} (hf : emitPattern first = .ok ()) :
    ∀ q ∈ defaultListDataset c head rest first, QuadEmits q := by
  intro q hq
  unfold defaultListDataset at hq
  rw [hiri] at hq
  rcases (mem_dsInsert _ _ _ _).1 hq with rfl | hq
  · exact ⟨rfl, rfl, rfl, rfl⟩
  · rcases (mem_dsInsert _ _ _ _).1 hq with rfl | hq
    · exact ⟨rfl, rfl, hf, rfl⟩
    · cases hq

theorem node_emits (hl : MacroLib c.lib) (types : List RType) {s : Scope} (hs : ScopeOk s) {t : RType} {n : SNode}
    (hn : NodeOk types t n) : SatM (fun i' => emitValue types i'.dataset i'.value = .ok t) (n.build c s) := by
  match n, hn with
  | .node head rest intro value ds, ⟨h1, h2⟩ =>
    simp only [SNode.build]
    refine (format_emits hiri hl h1 _ (scopeOk_intro hs _)).bind fun v hv =>
      (SatM.lift (P := fun ds' => ∀ q ∈ ds', QuadEmits q) ?_).bind fun ds' hds' => .pure (emitValue_ok hds' hv)
    match value, h1, ds, h2 with
    | .format l input graph, _, some ds, h2 => exact dataset_emits' hiri _ (h2 ds rfl)
    | .format (.ref i) input graph, h1, none, _ =>
      simp only [nodeDataset]
      split
      · rename_i p hp
        refine (pattern_emits hiri (h1.2.1 p (by rw [hp]; exact .head _)) _).bind fun first hf => ?_
        exact listDataset_emits hiri _ _ hf
      · exact fun q hq => by cases hq

/-- What the compilation and emission of a derived layout give. -/
theorem body_emits (hl : MacroLib c.lib) (debug : Bool) (fuel : Nat) (de : Bool) {data : RData} (hdata : data.Plain)
    {types : List RType} {l : SLayout} (h : LayoutOk data types l) {s : Scope} (hs : ScopeOk s) :
    SatM (fun e => (e.layout.build debug fuel).Sat fun l' => (emit de types l').Sat (Emitted.For data)) (l.buildBody c s) := by
  match l, h with
  | .unit hd k, h =>
    simp only [SLayout.buildBody]
    refine (SatM.lift (header_emits hiri h hs)).bind fun b hb => .pure ?_
    change ((emitDataset b.dataset).bind _).Sat _
    rw [emitDataset_ok hb.1]
    trivial
  | .boolean hd r dt, ⟨h, hr⟩ =>
    simp only [SLayout.buildBody]
    refine (SatM.lift (header_emits hiri h hs)).bind fun b hb => (SatM.lift (literalResource_emits hiri hr _ _)).bind fun r' hr' =>
      (SatM.lift (datatype_emits hiri _ _ _)).bind fun d hd => .pure ?_
    change (emitData de _).Sat _
    rw [emitData_ok de hb.1 hr' hd]
    trivial
  | .number hd r dt, ⟨h, hr⟩ =>
    simp only [SLayout.buildBody]
    refine (SatM.lift (header_emits hiri h hs)).bind fun b hb => (SatM.lift (literalResource_emits hiri hr _ _)).bind fun r' hr' =>
      (SatM.lift (iri_emits hiri _ _)).bind fun d hd => .pure ?_
    change (emitData de _).Sat _
    rw [emitData_ok de hb.1 hr' hd]
    trivial
  | .byteString hd r dt, ⟨h, hr⟩ =>
    simp only [SLayout.buildBody]
    refine (SatM.lift (header_emits hiri h hs)).bind fun b hb => (SatM.lift (literalResource_emits hiri hr _ _)).bind fun r' hr' =>
      (SatM.lift (iri_emits hiri _ _)).bind fun d hd => .pure ?_
    change (emitData de _).Sat _
    rw [emitData_ok de hb.1 hr' hd]
    trivial
  | .textString hd e r dt, ⟨h, he, hr⟩ =>
    subst he
    simp only [SLayout.buildBody]
    refine (SatM.lift (header_emits hiri h hs)).bind fun b hb => (SatM.lift (literalResource_emits hiri hr _ _)).bind fun r' hr' =>
      (SatM.lift (datatype_emits hiri _ _ _)).bind fun d hd => .pure ?_
    change (emitData de _).Sat _
    rw [emitData_ok de hb.1 hr' hd]
    trivial
  | .id hd e r, ⟨h, he, hr⟩ =>
    subst he
    simp only [SLayout.buildBody]
    refine (SatM.lift (header_emits hiri h hs)).bind fun b hb => (SatM.lift (literalResource_emits hiri hr _ _)).bind fun r' hr' => .pure ?_
    change ((emitDataset b.dataset).bind fun _ => (if de then emitPattern r' else .ok ()).bind _).Sat _
    rw [emitDataset_ok hb.1, hr']
    cases de <;> trivial
  | .product hd fields, ⟨hh0, fs, hd', h1, h2⟩ =>
    subst hd'
    simp only [SLayout.buildBody]
    refine (SatM.lift (header_emits hiri hh0 hs)).bind fun b hb => (fields_emit hiri hl types _ _ hb.2
      (fun m t => ∃ attrs ty, (m, attrs, ty) ∈ fs ∧ Content ty t) fields fun e he => ?_).bind fun fs' hfs' => .pure ?_
    · obtain ⟨m, attrs, ty, t, h3, h4, h5, h6⟩ := h2 e he
      exact ⟨m, t, h3, hdata _ h4, ⟨attrs, ty, h4, h5⟩, h6⟩
    · change ((emitDataset b.dataset).bind fun _ => (emitFields types fs').bind _).Sat _
      rw [emitDataset_ok hb.1]
      refine hfs'.bind fun l hl' => ⟨fs, rfl, hl'.1, fun f hf => ?_⟩
      obtain ⟨x, hx⟩ := h1 f hf
      exact hl'.2 f.1 x hx
  | .sum hd variants, ⟨hh0, vs, hd', h1, h2⟩ =>
    subst hd'
    simp only [SLayout.buildBody]
    refine (SatM.lift (header_emits hiri hh0 hs)).bind fun b hb => (variants_emit hiri hl types hb.2
      (fun m t => ∃ attrs a, (m, attrs, .unnamed [(a, t)]) ∈ vs) variants fun e he => ?_).bind fun vs' hvs' => .pure ?_
    · obtain ⟨attrs, a, t, h4, h6⟩ := h2 e he
      exact ⟨t, hdata _ h4, ⟨attrs, a, h4⟩, h6⟩
    · change ((emitDataset b.dataset).bind fun _ => (emitVariants types vs').bind _).Sat _
      rw [emitDataset_ok hb.1]
      refine hvs'.bind fun l hl' => ⟨vs, rfl, hl'.1, fun v hv => ?_⟩
      obtain ⟨x, hx⟩ := h1 v hv
      exact hl'.2 v.1 x hx
  | .ordered hd node head tail, ⟨hh0, hh, ht, attrs, t, hd', hn⟩ =>
    subst hd'
    simp only [SLayout.buildBody]
    refine (SatM.lift (header_emits hiri hh0 hs)).bind fun b hb => (node_emits hiri hl types hb.2 hn).bind fun n' hn' =>
      (SatM.lift (pattern_emits hiri hh _)).bind fun p hp => (SatM.lift (pattern_emits hiri ht _)).bind fun q hq => .pure ?_
    change ((emitDataset b.dataset).bind fun _ => (emitPattern p).bind fun _ => (emitPattern q).bind fun _ =>
      (emitValue types n'.dataset n'.value).bind _).Sat _
    rw [emitDataset_ok hb.1, hp, hq, hn']
    exact ⟨attrs, rfl⟩
  | .unordered hd item, ⟨hh0, attrs, t, hd', hi⟩ =>
    subst hd'
    simp only [SLayout.buildBody]
    refine (SatM.lift (header_emits hiri hh0 hs)).bind fun b hb => (item_emits hiri hl types _ hb.2 hi).bind fun n' hn' => .pure ?_
    change ((emitDataset b.dataset).bind fun _ => (emitValue types n'.dataset n'.value).bind _).Sat _
    rw [emitDataset_ok hb.1, hn']
    exact ⟨attrs, rfl⟩
  | .sized hd items, ⟨hh0, fs, hd', hi⟩ =>
    subst hd'
    simp only [SLayout.buildBody]
    refine (SatM.lift (header_emits hiri hh0 hs)).bind fun b hb => (items_emit hiri hl types _ hb.2 hi).bind fun is' his' => .pure ?_
    change ((emitDataset b.dataset).bind fun _ => (emitItems types is').bind _).Sat _
    rw [emitDataset_ok hb.1, his']
    exact ⟨fs, rfl, rfl⟩

/-- The identifier of a layout is found or created without panic, and nothing is defined meanwhile. -/
theorem buildId_sat (s : Scope) (id : Option CompactIri) (b : Builder Term) :
    (buildId c s id b).1.Sat (fun _ => True) ∧ (buildId c s id b).2.layouts = b.layouts := by
  cases id with
  | none => exact ⟨trivial, rfl⟩
  | some i => exact ⟨(iri_emits hiri s i).mono fun _ _ => trivial, rfl⟩

/-- A derived layout, compiled and emitted. -/
theorem deriveCode_sat (lib : IriLib) (hlib : c.lib = lib) (hl : MacroLib lib) (debug : Bool) (fuel : Nat) (de : Bool) {item : RItem}
    (hp : ¬ PrefixesRust item.attrs) (hdata : item.data.Plain) :
    (deriveCode lib c debug fuel de item).Sat (Emitted.For item.data) := by
  subst hlib
  unfold deriveCode
  refine Sat.bind (P := fun p => (emit de p.2 p.1).Sat (Emitted.For item.data)) (.mapErr ?_) fun p hp' => .mapErr hp'
  unfold derive
  refine (Sat.mapErr (parseItem_sat hl hp)).bind fun p hp' => ?_
  have hid := buildId_sat hiri {} p.1.layoutId ⟨[], 0⟩
  simp only [SLayout.buildTop, SLayout.buildWithContext, SLayout.build, defineLayout, BuildM.bind]
  rcases hi : buildId c {} p.1.layoutId ⟨[], 0⟩ with ⟨o, b⟩
  rw [hi] at hid
  obtain ⟨h1, h2⟩ := hid
  dsimp only at h1 h2
  cases o with
  | ok r =>
    have hb := body_emits hiri hl debug fuel de hdata hp' (s := {}) (by simp [ScopeOk]) b
    dsimp only
    rcases hbb : p.1.buildBody c {} b with ⟨o, b'⟩
    rw [hbb] at hb
    obtain ⟨h3, h4⟩ := hb
    dsimp only at h3 h4
    subst h4
    cases o with
    | ok e =>
      simp only [insertLayout, h2, List.lookup_nil, Option.isSome_none, bmapInsert, buildAll, Bool.false_eq_true, if_false]
      change (e.layout.build debug fuel).Sat _ at h3
      cases hl' : e.layout.build debug fuel with
      | ok l =>
        rw [hl'] at h3
        simp only [Out.bind_ok, List.lookup_cons_self]
        exact h3
      | err e => exact nomatch e
      | panic => rw [hl'] at h3; exact h3
      | fuel => rw [hl'] at h3; exact h3
    | err e => trivial
    | panic => exact h3
    | fuel => exact h3
  | err e => trivial
  | panic => exact h1
  | fuel => exact h1

end

end Rust

end Verif
