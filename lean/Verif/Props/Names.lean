import Verif.Proof.Names
import Mathlib.Data.List.Pairwise

/-!
# C27, C28: names

`ElementId.fromStr?`/`asStr?` and `AttributeId.fromStr?`/`asStr?` are the model of `from_str`/`as_str` with panics as
`Except.error`; the tables of names.rs are `elementsEntries`, `attributesEntries`.
-/

namespace Svgdom

/-- C27: every element id has a name, and parsing that name gives the id back. -/
theorem C27_element_roundtrip (e : ElementId) :
    ∃ name, e.asStr? = .ok name ∧ ElementId.fromStr? name = .ok (some e) := by
  obtain ⟨k, h1, h2⟩ := elementsMap.keyOf_of_complete e (element_complete e)
  exact ⟨k, h1, elementsMap.get_of_mem elements_checkGet h2⟩

/-- C27: every attribute id has a name, and parsing that name gives the id back. -/
theorem C27_attribute_roundtrip (a : AttributeId) :
    ∃ name, a.asStr? = .ok name ∧ AttributeId.fromStr? name = .ok (some a) := by
  obtain ⟨k, h1, h2⟩ := attributesMap.keyOf_of_complete a (attribute_complete a)
  exact ⟨k, h1, attributesMap.get_of_mem attributes_checkGet h2⟩

/-- C28: `ElementId::from_str` never panics, on any string. -/
theorem C28_element_total (s : Str) : ∃ r, ElementId.fromStr? s = .ok r := by
  obtain ⟨_, _, _, _, h⟩ := elementsMap.get_total elements_checkBounds s
  exact ⟨_, h⟩

/-- C28: `AttributeId::from_str` never panics, on any string. -/
theorem C28_attribute_total (s : Str) : ∃ r, AttributeId.fromStr? s = .ok r := by
  obtain ⟨_, _, _, _, h⟩ := attributesMap.get_total attributes_checkBounds s
  exact ⟨_, h⟩

/-- C28: a string parses to an element id exactly if it is the name of that id. -/
theorem C28_element_sound (s : Str) (e : ElementId) :
    ElementId.fromStr? s = .ok (some e) ↔ e.asStr? = .ok s := by
  obtain ⟨k, h1, h2⟩ := elementsMap.keyOf_of_complete e (element_complete e)
  constructor
  · intro h
    have hm := elementsMap.mem_of_get elements_checkBounds h
    have : s = k := by
      have e1 : elementsEntries.Pairwise (fun a b => a.2 ≠ b.2) := by decide +kernel
      haveI : Std.Symm (fun a b : Str × ElementId => a.2 ≠ b.2) := ⟨fun _ _ h => h.symm⟩
      have hu : ∀ x ∈ elementsEntries, ∀ y ∈ elementsEntries, x.2 = y.2 → x = y := by
        intro x hx y hy hxy
        refine Decidable.byContradiction fun hne => ?_
        exact (e1.forall hx hy hne) hxy
      exact congrArg Prod.fst (hu _ hm _ h2 rfl)
    exact this ▸ h1
  · intro h
    have : k = s := by rw [show e.asStr? = _ from h1] at h; simpa using h
    exact this ▸ elementsMap.get_of_mem elements_checkGet h2

/-- C28: a string parses to an attribute id exactly if it is the name of that id. -/
theorem C28_attribute_sound (s : Str) (a : AttributeId) :
    AttributeId.fromStr? s = .ok (some a) ↔ a.asStr? = .ok s := by
  obtain ⟨k, h1, h2⟩ := attributesMap.keyOf_of_complete a (attribute_complete a)
  constructor
  · intro h
    have hm := attributesMap.mem_of_get attributes_checkBounds h
    have : s = k := by
      have e1 : attributesEntries.Pairwise (fun a b => a.2 ≠ b.2) := by decide +kernel
      haveI : Std.Symm (fun a b : Str × AttributeId => a.2 ≠ b.2) := ⟨fun _ _ h => h.symm⟩
      have hu : ∀ x ∈ attributesEntries, ∀ y ∈ attributesEntries, x.2 = y.2 → x = y := by
        intro x hx y hy hxy
        refine Decidable.byContradiction fun hne => ?_
        exact (e1.forall hx hy hne) hxy
      exact congrArg Prod.fst (hu _ hm _ h2 rfl)
    exact this ▸ h1
  · intro h
    have : k = s := by rw [show a.asStr? = _ from h1] at h; simpa using h
    exact this ▸ attributesMap.get_of_mem attributes_checkGet h2

/-- C28: different element ids have different names. -/
theorem C28_element_injective (e f : ElementId) (h : e.asStr? = f.asStr?) : e = f := by
  obtain ⟨k, h1, h2⟩ := C27_element_roundtrip e
  have h3 := (C28_element_sound k f).2 (h ▸ h1)
  rw [h2] at h3; simpa using h3

/-- C28: different attribute ids have different names. -/
theorem C28_attribute_injective (e f : AttributeId) (h : e.asStr? = f.asStr?) : e = f := by
  obtain ⟨k, h1, h2⟩ := C27_attribute_roundtrip e
  have h3 := (C28_attribute_sound k f).2 (h ▸ h1)
  rw [h2] at h3; simpa using h3

/-- Non-vacuity: a real name parses, an unknown one does not. -/
example : ElementId.fromStr? (st! "linearGradient") = .ok (some .LinearGradient) := by decide +kernel
example : ElementId.fromStr? (st! "nonexistent") = .ok none := by decide +kernel
example : AttributeId.fromStr? (st! "xlink:href") = .ok none := by decide +kernel
example : AttributeId.fromStr? (st! "stroke-width") = .ok (some .StrokeWidth) := by decide +kernel

end Svgdom
