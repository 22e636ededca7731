import Verif.RustEmitLemmas
import Verif.Props.Rust

/-!
# C73: the code of derived implementations
-/

set_option linter.unusedSectionVars false
set_option linter.unusedSimpArgs false

namespace Verif.Props

open Verif.Rust (deriveCode Emitted MacroLib PrefixesRust BlankLabel isVarName RItem RAttr RType RData Tok)

/-- **C73**, variables. The names of variables that patterns accept are the blank node labels of N-Triples without dots. -/
theorem C73_variable_names (s : String) : isVarName s = true ↔ BlankLabel s ∧ '.' ∉ s.toList := Rust.isVarName_iff s

/-- **C73**, as far as it holds: without a prefix `rust` and without raw identifiers. Whatever the attributes and the definition of
the type, deriving `DeserializeLd` (`de`) or `SerializeLd` gives an error or code, and never panics. The code reads and writes each
field, variant and item with the type it is declared with. -/
theorem C73_derive_partial (lib : IriLib) (hl : MacroLib lib) (c : BuildCtx Term) (hlib : c.lib = lib) (hiri : c.iri = Term.iri)
    (debug : Bool) (fuel : Nat) (de : Bool) (item : RItem) (hp : ¬ PrefixesRust item.attrs) (hd : item.data.Plain) :
    (∃ e, deriveCode lib c debug fuel de item = .ok e ∧ e.For item.data) ∨ ∃ e, deriveCode lib c debug fuel de item = .err e := by
  have h := Rust.deriveCode_sat hiri lib hlib hl debug fuel de hp hd
  cases hc : deriveCode lib c debug fuel de item with
  | ok e => rw [hc] at h; exact .inl ⟨e, rfl, h⟩
  | err e => exact .inr ⟨e, rfl⟩
  | panic => rw [hc] at h; exact absurd h id
  | fuel => rw [hc] at h; exact absurd h id

namespace EmitExample

/-- Everything with a colon is an IRI. -/
def lib : IriLib where
  isIriRef := fun _ => true
  isIri := fun s => s.toList.contains ':'
  resolve := fun r base => base ++ r
  isBlankId := fun s =>
    match s.toList with
    | '_' :: ':' :: l => isVarName (String.ofList l)
    | _ => false
  isLangTag := fun _ => false
  decimalType := fun _ => xsdBoolean

theorem lib_macro : MacroLib lib where
  typeIri i := by
    simp only [lib, String.toList_append, List.contains_eq_mem, List.mem_append, decide_eq_true_eq]
    exact .inl (by decide +kernel)
  blank s h := by
    simp only [lib] at h
    split at h
    · rename_i l hs
      obtain ⟨h1, h2⟩ := (C73_variable_names _).1 h
      exact ⟨String.ofList l, by rw [← String.toList_inj, String.toList_append, hs]; simp, h1, h2⟩
    · cases h

/-- The context of the macros. -/
def ctx : BuildCtx Term where
  lib := lib
  iri := .iri
  lit := fun l => .literal l
  fresh := fun n => .blank (toString n)
  le := fun _ _ => true
  leQ := fun _ _ => true

/-- `struct Person { #[tldr("http://example.org/name")] name: String, … }` -/
def person (attrs : List RAttr) (second : String) : RItem :=
  ⟨"Person", attrs, .struct (.named [("name", [⟨"tldr", some [.str "http://example.org/name"]⟩], .path [] "String" []),
    (second, [⟨"tldr", some [.str "http://example.org/age"]⟩], .path [] "Option" [.path [] "u8" []])])⟩

/-- `#[tldr(prefix("ex" = "http://example.org/"))]` -/
def prefixed (name : String) : RAttr :=
  ⟨"tldr", some [.ident "prefix", .group [.str name, .punct '=', .str "http://example.org/"]]⟩

/-- The types of the fields. -/
def fields : Out Rust.DeriveCodeError Emitted → Option (List (String × String × List String))
  | .ok (.fields l) => some (l.map fun e => match e.2 with
      | .path _ t as => (e.1, t, as.map fun a => match a with
        | .path _ t _ => t
        | .other t => t)
      | .other t => (e.1, t, []))
  | _ => none

def isPanic : Out Rust.DeriveCodeError Emitted → Bool
  | .panic => true
  | _ => false

theorem isPanic_eq {x : Out Rust.DeriveCodeError Emitted} (h : isPanic x = true) : x = .panic := by
  cases x <;> first | rfl | cases h

/-- The hypotheses hold of an ordinary type, and code is emitted with the declared types, without `Option`. -/
example : ¬ PrefixesRust (person [prefixed "ex"] "age").attrs ∧ (person [prefixed "ex"] "age").data.Plain ∧
    fields (deriveCode lib ctx true 10 true (person [prefixed "ex"] "age")) = some [("age", "u8", []), ("name", "String", [])] ∧
    fields (deriveCode lib ctx true 10 false (person [prefixed "ex"] "age")) = some [("age", "u8", []), ("name", "String", [])] := by
  refine ⟨?_, ?_, by decide +kernel, by decide +kernel⟩
  · rintro ⟨a, ha, -, ts, g, h1, ⟨u, v, h2⟩, h3⟩
    simp only [person, List.mem_singleton] at ha
    subst ha
    simp only [prefixed, Option.some.injEq] at h1
    subst h1
    match u, h2 with
    | [], h2 =>
      simp only [List.nil_append, List.cons_append, List.cons.injEq, Tok.group.injEq] at h2
      rw [h2.2.1] at h3
      simp at h3
    | [_], h2 => simp at h2
    | _ :: _ :: u, h2 => simp at h2
  · simp only [RData.Plain, person, List.mem_cons, List.not_mem_nil, or_false]
    rintro f (rfl | rfl) ⟨m, hm⟩
    · have := congrArg String.toList hm
      rw [String.toList_append] at this
      exact absurd (congrArg List.head? this) (by simp)
    · have := congrArg String.toList hm
      rw [String.toList_append] at this
      exact absurd (congrArg List.head? this) (by simp)

end EmitExample

open EmitExample in
/-- **C73** is violated by a prefix named `rust`: the macros give the types of fields the identifiers `rust:/#Type0`, `rust:/#Type1`,
…, which the prefix then changes, and the derivation panics. -/
theorem C73_prefix (debug : Bool) (fuel : Nat) (de : Bool) :
    MacroLib lib ∧ ctx.lib = lib ∧ ctx.iri = Term.iri ∧ (∃ e, deriveCode lib ctx debug fuel de (person [prefixed "ex"] "age") = .ok e) ∧
    deriveCode lib ctx debug fuel de (person [prefixed "rust"] "age") = .panic := by
  refine ⟨lib_macro, rfl, rfl, ?_, isPanic_eq ?_⟩
  · have : (match deriveCode lib ctx debug fuel de (person [prefixed "ex"] "age") with
      | .ok _ => true
      | _ => false) = true := by cases debug <;> cases de <;> rfl
    split at this
    · rename_i e he
      exact ⟨e, he⟩
    · cases this
  · cases debug <;> cases de <;> rfl

open EmitExample in
/-- **C73** is violated by raw identifiers: the derivation panics for a field `r#type`, and not for the same field under another
name. -/
theorem C73_raw (debug : Bool) (fuel : Nat) (de : Bool) :
    MacroLib lib ∧ ctx.lib = lib ∧ ctx.iri = Term.iri ∧ (∃ e, deriveCode lib ctx debug fuel de (person [prefixed "ex"] "age") = .ok e) ∧
    deriveCode lib ctx debug fuel de (person [prefixed "ex"] "r#type") = .panic :=
  ⟨lib_macro, rfl, rfl, (C73_prefix debug fuel de).2.2.2.1, isPanic_eq (by cases debug <;> cases de <;> rfl)⟩

end Verif.Props
