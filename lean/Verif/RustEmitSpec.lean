import Verif.RustEmit

/-!
# Specification of C73

The grammar of blank node labels, and what the derive macros are expected to emit for a type definition.
-/

namespace Verif.Rust

/-! ## Blank node labels (RDF 1.1 N-Triples, section 7) -/

/-- `[#xlo-#xhi]`. -/
def CharIn (lo hi : Nat) (c : Char) : Prop := lo ≤ c.toNat ∧ c.toNat ≤ hi

/-- `[157s] PN_CHARS_BASE`. -/
def PnCharsBase (c : Char) : Prop :=
  ('A' ≤ c ∧ c ≤ 'Z') ∨ ('a' ≤ c ∧ c ≤ 'z') ∨ CharIn 0x00C0 0x00D6 c ∨ CharIn 0x00D8 0x00F6 c ∨ CharIn 0x00F8 0x02FF c ∨
  CharIn 0x0370 0x037D c ∨ CharIn 0x037F 0x1FFF c ∨ CharIn 0x200C 0x200D c ∨ CharIn 0x2070 0x218F c ∨ CharIn 0x2C00 0x2FEF c ∨
  CharIn 0x3001 0xD7FF c ∨ CharIn 0xF900 0xFDCF c ∨ CharIn 0xFDF0 0xFFFD c ∨ CharIn 0x10000 0xEFFFF c

/-- `[158s] PN_CHARS_U ::= PN_CHARS_BASE | '_' | ':'`. -/
def PnCharsU (c : Char) : Prop := PnCharsBase c ∨ c = '_' ∨ c = ':'

/-- `[160s] PN_CHARS ::= PN_CHARS_U | '-' | [0-9] | #x00B7 | [#x0300-#x036F] | [#x203F-#x2040]`. -/
def PnChars (c : Char) : Prop :=
  PnCharsU c ∨ c = '-' ∨ ('0' ≤ c ∧ c ≤ '9') ∨ c = '·' ∨ CharIn 0x0300 0x036F c ∨ CharIn 0x203F 0x2040 c

/-- `[141s] BLANK_NODE_LABEL ::= '_:' (PN_CHARS_U | [0-9]) ((PN_CHARS | '.')* PN_CHARS)?`, without `_:`. -/
inductive BlankLabel : String → Prop
  | one (s c) : s.toList = [c] → (PnCharsU c ∨ ('0' ≤ c ∧ c ≤ '9')) → BlankLabel s
  | more (s c cs d) : s.toList = c :: cs ++ [d] → (PnCharsU c ∨ ('0' ≤ c ∧ c ≤ '9')) → (∀ x ∈ cs, PnChars x ∨ x = '.') → PnChars d →
      BlankLabel s

/-! ## The derive macros -/

/-- What is assumed of the libraries of IRIs and RDF terms: the identifiers given to types by the macros are IRIs, and
blank node identifiers are those of N-Triples, without dots. -/
structure MacroLib (lib : IriLib) : Prop where
  typeIri : ∀ i : Nat, lib.isIri ("rust:/#Type" ++ toString i) = true
  blank : ∀ s, lib.isBlankId s = true → ∃ l, s = "_:" ++ l ∧ BlankLabel l ∧ '.' ∉ l.toList

/-- A raw identifier. -/
def RawName (n : String) : Prop := ∃ m, n = "r#" ++ m

/-- No field or variant has a raw name. -/
def RData.Plain : RData → Prop
  | .struct (.named fs) => ∀ f ∈ fs, ¬ RawName f.1
  | .enum vs => ∀ v ∈ vs, ¬ RawName v.1
  | _ => True

/-- An attribute `prefix(…)` of the type mentions the name `rust`. -/
def PrefixesRust (attrs : List RAttr) : Prop :=
  ∃ a ∈ attrs, a.path = "tldr" ∧ ∃ ts g, a.tokens = some ts ∧ [.ident "prefix", .group g] <:+: ts ∧ Tok.str "rust" ∈ g

/-- The type of the value of a field: the content of an `Option`, if it is one. -/
inductive Content : RType → RType → Prop
  | option (t) : Content (.path [] "Option" [t]) t
  | other (t) : (∀ u, t ≠ .path [] "Option" [u]) → Content t t

/-- The contents of a value are read and written with the types of the definition. -/
def Emitted.For (data : RData) : Emitted → Prop
  | .nothing => True
  | .fields l => ∃ fs, data = .struct (.named fs) ∧ (∀ e ∈ l, ∃ attrs ty, (e.1, attrs, ty) ∈ fs ∧ Content ty e.2) ∧
      ∀ f ∈ fs, ∃ t, (f.1, t) ∈ l
  | .variants l => ∃ vs, data = .enum vs ∧ (∀ e ∈ l, ∃ attrs a, (e.1, attrs, .unnamed [(a, e.2)]) ∈ vs) ∧
      ∀ v ∈ vs, ∃ t, (v.1, t) ∈ l
  | .items l => ∃ fs, data = .struct (.unnamed fs) ∧ l = fs.map (·.2)
  | .list t => ∃ attrs, data = .struct (.unnamed [(attrs, .path [] "Vec" [t])])

end Verif.Rust
