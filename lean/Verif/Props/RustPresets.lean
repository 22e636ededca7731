import Verif.RustPresets
import Verif.DeriveSpec
import Verif.Prelude
import Mathlib.Tactic.NormNum

/-!
# Property C72 (types of the layouts of the prelude)
-/

set_option linter.unusedSectionVars false
set_option linter.unusedSimpArgs false

namespace Verif.Props

open Verif.Rust (GenCtx RType presetType runtimeType layoutRef IntRange XsdRange)

/-- **C72** (reference). In generated code, a layout whose only IRI is that of a layout of the prelude is referred to by the type of
this layout, whatever the names and modules given to the generator. -/
theorem C72_reference {R : Type} (g : GenCtx R) (r : R) (name : String) (t : RType) (hr : g.irisOf r = [preludeIri name])
    (ht : presetType (preludeIri name) = some t) : layoutRef g r = .ok t := by
  simp only [layoutRef, hr, Rust.layoutRefLoop, ht]

theorem append_left_inj {pre a b : String} (h : pre ++ a = pre ++ b) : a = b := by
  have := congrArg String.toList h
  simp only [String.toList_append, List.append_cancel_left_eq] at this
  exact String.toList_inj.1 this

theorem preludeIri_inj {a b : String} (h : preludeIri a = preludeIri b) : a = b := append_left_inj h

theorem preset_named (name : String) : presetType (preludeIri name) = (Rust.presetTypes.find? fun p => p.1 = name).map (·.2) := by
  have h : ∀ p : String × RType, (decide (preludeIri p.1 = preludeIri name)) = decide (p.1 = name) := by
    intro p
    exact decide_eq_decide.2 ⟨preludeIri_inj, fun h => by rw [h]⟩
  simp only [presetType, h]

theorem int_preset (name dt : String) (lo hi : Int) (ht : presetType (preludeIri name) = some (.path [] name []))
    (hp : runtimeType (.path [] name []) = some (.int dt lo hi)) (h1 : IntRange name lo hi) (h2 : XsdRange dt lo hi) :
    ∃ t p, presetType (preludeIri name) = some t ∧ runtimeType t = some p ∧ p.Writes (.number (plainData (.iri dt))) ∧
      ∀ dt' lo hi, p = .int dt' lo hi → t = .path [] name [] ∧ IntRange name lo hi ∧ XsdRange dt' lo hi := by
  refine ⟨_, _, ht, hp, rfl, ?_⟩
  rintro dt' lo' hi' ⟨⟩
  exact ⟨rfl, h1, h2⟩

/-- **C72** (partial). For each layout of the prelude other than `unit` and `boolean`, the runtime implements the type used in
generated code, for this very layout: if it is an integer type, its range is that of the datatype of the layout. -/
theorem C72_presets_partial (name : String) (l : Layout Term) (hl : preludeRegistry Term.iri (.iri (preludeIri name)) = some l)
    (hu : name ≠ "unit") (hb : name ≠ "boolean") :
    ∃ t p, presetType (preludeIri name) = some t ∧ runtimeType t = some p ∧ p.Writes l ∧
      ∀ dt lo hi, p = .int dt lo hi → t = .path [] name [] ∧ IntRange name lo hi ∧ XsdRange dt lo hi := by
  have hmem : (name, l) ∈ preludeTable Term.iri := by
    obtain ⟨e, he, rfl⟩ := Option.map_eq_some_iff.1 hl
    have h1 := List.find?_some he
    have h2 := List.mem_of_find?_eq_some he
    simp only [decide_eq_true_eq, Term.iri.injEq] at h1
    have h1 : e.1 = name := preludeIri_inj h1
    rw [← h1]
    exact h2
  simp only [preludeTable, List.mem_cons, List.not_mem_nil, or_false, Prod.mk.injEq] at hmem
  rcases hmem with ⟨rfl, -⟩ | ⟨rfl, -⟩ | ⟨rfl, rfl⟩ | ⟨rfl, rfl⟩ | ⟨rfl, rfl⟩ | ⟨rfl, rfl⟩ | ⟨rfl, rfl⟩ | ⟨rfl, rfl⟩ | ⟨rfl, rfl⟩ |
    ⟨rfl, rfl⟩ | ⟨rfl, rfl⟩ | ⟨rfl, rfl⟩
  · exact absurd rfl hu
  · exact absurd rfl hb
  · exact int_preset _ _ _ _ (by simp [preset_named, Rust.presetTypes]) rfl ⟨8, .inl ⟨by decide +kernel, rfl, by norm_num⟩⟩
      (.inl ⟨by decide +kernel, rfl, rfl⟩)
  · exact int_preset _ _ _ _ (by simp [preset_named, Rust.presetTypes]) rfl ⟨16, .inl ⟨by decide +kernel, rfl, by norm_num⟩⟩
      (.inr (.inl ⟨by decide +kernel, rfl, rfl⟩))
  · exact int_preset _ _ _ _ (by simp [preset_named, Rust.presetTypes]) rfl ⟨32, .inl ⟨by decide +kernel, rfl, by norm_num⟩⟩
      (.inr (.inr (.inl ⟨by decide +kernel, rfl, rfl⟩)))
  · exact int_preset _ _ _ _ (by simp [preset_named, Rust.presetTypes]) rfl ⟨64, .inl ⟨by decide +kernel, rfl, by norm_num⟩⟩
      (.inr (.inr (.inr (.inl ⟨by decide +kernel, rfl, rfl⟩))))
  · exact int_preset _ _ _ _ (by simp [preset_named, Rust.presetTypes]) rfl ⟨8, .inr ⟨by decide +kernel, by norm_num, by norm_num⟩⟩
      (.inr (.inr (.inr (.inr (.inl ⟨by decide +kernel, rfl, rfl⟩)))))
  · exact int_preset _ _ _ _ (by simp [preset_named, Rust.presetTypes]) rfl ⟨16, .inr ⟨by decide +kernel, by norm_num, by norm_num⟩⟩
      (.inr (.inr (.inr (.inr (.inr (.inl ⟨by decide +kernel, rfl, rfl⟩))))))
  · exact int_preset _ _ _ _ (by simp [preset_named, Rust.presetTypes]) rfl ⟨32, .inr ⟨by decide +kernel, by norm_num, by norm_num⟩⟩
      (.inr (.inr (.inr (.inr (.inr (.inr (.inl ⟨by decide +kernel, rfl, rfl⟩)))))))
  · exact int_preset _ _ _ _ (by simp [preset_named, Rust.presetTypes]) rfl ⟨64, .inr ⟨by decide +kernel, by norm_num, by norm_num⟩⟩
      (.inr (.inr (.inr (.inr (.inr (.inr (.inr ⟨by decide +kernel, rfl, rfl⟩)))))))
  · exact ⟨.path [] "String" [], .string, by simp [preset_named, Rust.presetTypes], rfl, rfl, by rintro dt lo hi ⟨⟩⟩
  · exact ⟨.path ["treeldr", "rdf_types"] "Id" [], .id, by simp [preset_named, Rust.presetTypes], rfl, rfl, by rintro dt lo hi ⟨⟩⟩

/-- **C72** fails for `unit` and `boolean`: generated code uses the types `()` and `bool`, for which the runtime has no
implementation. -/
theorem C72_unimplemented :
    (∃ t, presetType (preludeIri "unit") = some t ∧ runtimeType t = none) ∧
    ∃ t, presetType (preludeIri "boolean") = some t ∧ t = .path [] "bool" [] ∧ runtimeType t = none :=
  ⟨⟨.other "()", by simp [preset_named, Rust.presetTypes], rfl⟩, .path [] "bool" [], by simp [preset_named, Rust.presetTypes], rfl, rfl⟩

/-- **C72** fails for the trivial layouts: the type generated for `always` and `never` is an alias of a type that the runtime
crate does not have. -/
theorem C72_trivial {R : Type} (g : GenCtx R) (reg : Registry R) (r : R) (ident : String)
    (hi : Rust.layoutIdent g r = .ok ident) :
    (reg r = some .always → Rust.generate g reg r = .ok (.alias ident (.path ["treeldr"] "Always" []))) ∧
    (reg r = some .never → Rust.generate g reg r = .ok (.alias ident (.path ["treeldr"] "Never" []))) ∧
    "Always" ∉ Rust.runtimeItems ∧ "Never" ∉ Rust.runtimeItems := by
  refine ⟨fun h => ?_, fun h => ?_, by decide +kernel, by decide +kernel⟩ <;> simp [Rust.generate, h, hi]

example : ∃ l, preludeRegistry Term.iri (.iri (preludeIri "u16")) = some l := ⟨.number (plainData (.iri (xsdIri "unsignedShort"))), by decide +kernel⟩

end Verif.Props
