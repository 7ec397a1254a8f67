import Verif.Proof.Form
import Verif.Props.Attrs
import Verif.Model.Writer
import Verif.Spec.Cases

/-!
# C101: the form of references
-/

set_option autoImplicit false

namespace Svgdom

/-- C101: in every reachable state a reference has the form that the name of its attribute demands. -/
theorem C101_form {s : St} (h : Reachable s) {i : NodeId} (hi : s.live i = true) {a : Attribute} (ha : a ∈ s.attributes i) :
    FormOf a.name a.value := h.formed i hi a ha

/-- C101, what is written: a reference is written as `#id` if and only if the attribute is `href`, and otherwise as `url(#id)`, with
something after it only in `fill` and `stroke`. -/
theorem C101_written {s : St} (h : Reachable s) (W : ValueWriter) {i n : NodeId} (hi : s.live i = true) {a : Attribute}
    (ha : a ∈ s.attributes i) (hn : a.value.refersTo n = true) :
    (a.name = .id .Href → s.writeValue W a.value = '#' :: s.idOf n) ∧
    (a.name ≠ .id .Href → ∃ rest, s.writeValue W a.value = st!"url(#" ++ s.idOf n ++ st!")" ++ rest ∧
      (a.name ≠ .id .Fill → a.name ≠ .id .Stroke → rest = [])) := by
  have hf := C101_form h hi ha
  cases hv : a.value with
  | link m =>
    rw [hv] at hf hn
    have hn : m = n := by simpa [AttributeValue.refersTo] using hn
    subst hn
    exact ⟨fun _ => rfl, fun hne => absurd hf hne⟩
  | funcLink m =>
    rw [hv] at hf hn
    have hn : m = n := by simpa [AttributeValue.refersTo] using hn
    subst hn
    exact ⟨fun e => absurd e hf.1, fun _ => ⟨[], by simp [St.writeValue], fun _ _ => rfl⟩⟩
  | paint m fb =>
    rw [hv] at hf hn
    have hn : m = n := by simpa [AttributeValue.refersTo] using hn
    subst hn
    refine ⟨fun e => ?_, fun _ => ⟨_, by simp only [St.writeValue]; rfl, fun h1 h2 => (hf.elim h1 h2).elim⟩⟩
    rcases hf with hf | hf <;> rw [e] at hf <;> cases hf
  | _ => rw [hv] at hn; simp [AttributeValue.refersTo] at hn

/-- C101: `set_attribute` stores the value it was given, if it accepts it, if and only if the value has the form of the name. -/
theorem C101_stored {s t : St} (h : Reachable s) {i : NodeId} (hi : s.live i = true) {a : Attribute}
    (e : s.setAttributeChecked i a = .ok (t, none)) :
    attrsGetValue (t.attributes i) a.name = some a.value ↔ FormOf a.name a.value := by
  rw [(C12_get h hi e).2.1, form_iff, Option.some.injEq]

/-- C101, the conversions of node.rs:31-53: that from a node always makes a value of the right form, that from a paint only for `fill` and
`stroke`. -/
theorem C101_conversions (name : AName) (n : NodeId) (fb : Option PaintFallback) :
    FormOf (attrOfNode name n).name (attrOfNode name n).value ∧
    (FormOf (attrOfPaint name n fb).name (attrOfPaint name n fb).value ↔ name = .id .Fill ∨ name = .id .Stroke) := by
  refine ⟨?_, Iff.rfl⟩
  unfold attrOfNode
  cases name with
  | name x => simp [QName.hasId, FormOf]
  | id y =>
    simp only [QName.hasId, Bool.or_eq_true, decide_eq_true_eq]
    by_cases h1 : AttributeId.Href = y
    · subst h1; simp [FormOf]
    · by_cases h2 : AttributeId.Fill = y
      · subst h2; simp [FormOf]
      · by_cases h3 : AttributeId.Stroke = y
        · subst h3; simp [FormOf]
        · simp [FormOf, h1, h2, h3, Ne.symm h1, Ne.symm h2, Ne.symm h3]

/-- C101: a value made by one of the conversions refers to the node, and after `set_attribute` accepted it, so does the stored value; in `fill`
and `stroke` with the fallback that was given. -/
theorem C101_refers {s t : St} (h : Reachable s) {i : NodeId} (hi : s.live i = true) (name : AName) (n : NodeId) :
    (s.setAttributeChecked i (attrOfNode name n) = .ok (t, none) →
      ∃ v, attrsGetValue (t.attributes i) name = some v ∧ v.refersTo n = true) ∧
    ∀ fb, s.setAttributeChecked i (attrOfPaint name n fb) = .ok (t, none) → name = .id .Fill ∨ name = .id .Stroke →
      attrsGetValue (t.attributes i) name = some (.paint n fb) := by
  constructor
  · intro e
    have hn : (attrOfNode name n).name = name := by unfold attrOfNode; split_ifs <;> rfl
    have hv : (attrOfNode name n).value.refersTo n = true := by
      unfold attrOfNode; split_ifs <;> simp [AttributeValue.refersTo]
    have := (C101_stored h hi e).2 (C101_conversions name n none).1
    rw [hn] at this
    exact ⟨_, this, hv⟩
  · intro fb e hname
    exact (C101_stored h hi e).2 ((C101_conversions name n fb).2.2 hname)

/-- `<rect fill="url(#a) none"/>`, and a `set_attribute` of `mask` with the same value. -/
def formHistory : List Op :=
  [.createElement (.id .Rect), .createElement (.id .LinearGradient), .setId 2 st!"a",
   .setAttribute 1 (attrOfPaint (.id .Fill) 2 (some .none)), .setAttribute 1 (attrOfNode (.id .Href) 2)]

/-- C101 fails: the value given to `set_attribute` is accepted, but another one is stored; the fallback is lost. -/
theorem C101_refuted : ∃ s t, Reachable s ∧ s.live 1 = true ∧
    s.setAttributeChecked 1 (attrOfPaint (.id .Mask) 2 (some .none)) = .ok (t, none) ∧
    attrsGetValue (t.attributes 1) (.id .Mask) = some (.funcLink 2) := by
  obtain ⟨s, h, e⟩ := exists_of_holds (ops := formHistory) (p := fun s => s.live 1 &&
    match s.setAttributeChecked 1 (attrOfPaint (.id .Mask) 2 (some .none)) with
    | .ok (t, none) => decide (attrsGetValue (t.attributes 1) (.id .Mask) = some (.funcLink 2))
    | _ => false) (by decide +kernel)
  simp only [Bool.and_eq_true] at e
  obtain ⟨e1, e2⟩ := e
  split at e2
  · next t he => exact ⟨s, t, h, e1, he, by simpa using e2⟩
  · cases e2

/-- Non-vacuity: a reachable state with references of two forms. -/
example : ∃ s, Reachable s ∧ s.live 1 = true ∧ (∃ a ∈ s.attributes 1, a.name = .id .Fill ∧ a.value.refersTo 2 = true) ∧
    ∃ a ∈ s.attributes 1, a.name = .id .Href ∧ a.value.refersTo 2 = true := by
  obtain ⟨s, h, e⟩ := exists_of_holds (ops := formHistory) (p := fun s => s.live 1 &&
    decide (s.attributes 1 = [⟨.id .Fill, .paint 2 (some .none)⟩, ⟨.id .Href, .link 2⟩])) (by decide +kernel)
  simp only [Bool.and_eq_true, decide_eq_true_eq] at e
  exact ⟨s, h, e.1, ⟨_, by rw [e.2]; exact List.mem_cons_self, rfl, by simp [AttributeValue.refersTo]⟩,
    ⟨⟨.id .Href, .link 2⟩, by rw [e.2]; simp, rfl, by simp [AttributeValue.refersTo]⟩⟩

/-- Non-vacuity of `C101_refers`: `set_attribute` accepts a paint with a fallback. -/
example : ∃ s t, Reachable s ∧ s.live 1 = true ∧
    s.setAttributeChecked 1 (attrOfPaint (.id .Stroke) 2 (some .currentColor)) = .ok (t, none) := by
  obtain ⟨s, h, e⟩ := exists_of_holds (ops := formHistory) (p := fun s => s.live 1 &&
    match s.setAttributeChecked 1 (attrOfPaint (.id .Stroke) 2 (some .currentColor)) with
    | .ok (_, none) => true
    | _ => false) (by decide +kernel)
  simp only [Bool.and_eq_true] at e
  obtain ⟨e1, e2⟩ := e
  split at e2
  · next t he => exact ⟨s, t, h, e1, he⟩
  · cases e2

/-- Non-vacuity of `C101_stored`: both answers occur. -/
example : FormOf (.id .Fill) (.paint 2 (some .none)) ∧ ¬ FormOf (.id .Mask) (.paint 2 (some .none)) := by
  constructor
  · exact .inl rfl
  · rintro (h | h) <;> cases h

end Svgdom
