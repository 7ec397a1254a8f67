import Verif.Model.Tables
import Verif.Spec.Categories
import Verif.Props.Names
import Verif.Props.Attrs

/-!
# C29, C30: element and attribute categories, default values
-/

set_option autoImplicit false

namespace Svgdom

theorem ElementId.forall_of_all {p : ElementId → Bool} (h : ElementId.all.all p = true) (e : ElementId) : p e = true :=
  List.all_eq_true.1 h e e.mem_all

theorem AttributeId.forall_of_all {p : AttributeId → Bool} (h : AttributeId.all.all p = true) (a : AttributeId) : p a = true :=
  List.all_eq_true.1 h a a.mem_all

theorem imp_of_or {a b : Bool} (h : (!a || b) = true) : a = true → b = true := by
  cases a <;> simp_all

/-! ## C29 -/

/-- C29: the inclusions between element categories, for every node. -/
theorem C29_elements (s : St) (n : NodeId) :
    (s.isBasicShape n = true → s.isShape n = true) ∧ (s.isShape n = true → s.isGraphic n = true) ∧
    (s.isTextContentChild n = true → s.isTextContent n = true) ∧ (s.isGradient n = true → s.isPaintServer n = true) ∧
    (s.isPaintServer n = true → s.isReferenced n = true) := by
  simp only [St.isBasicShape, St.isShape, St.isGraphic, St.isTextContentChild, St.isTextContent, St.isGradient, St.isPaintServer,
    St.isReferenced]
  cases s.tagId n with
  | none => simp
  | some e =>
    exact ⟨imp_of_or (ElementId.forall_of_all (p := fun e => !e.isBasicShape || e.isShape) (by decide +kernel) e),
      imp_of_or (ElementId.forall_of_all (p := fun e => !e.isShape || e.isGraphic) (by decide +kernel) e),
      imp_of_or (ElementId.forall_of_all (p := fun e => !e.isTextContentChild || e.isTextContent) (by decide +kernel) e),
      imp_of_or (ElementId.forall_of_all (p := fun e => !e.isGradient || e.isPaintServer) (by decide +kernel) e),
      imp_of_or (ElementId.forall_of_all (p := fun e => !e.isPaintServer || e.isReferenced) (by decide +kernel) e)⟩

/-- A node predicate is the documented one: the node has an SVG name, and that name is in the list. -/
def Documented (p : St → NodeId → Bool) (doc : List Str) : Prop :=
  ∀ (s : St) (n : NodeId), p s n = true ↔ ∃ e name, s.tagName n = .id e ∧ e.asStr? = .ok name ∧ name ∈ doc

theorem documented_of {p : St → NodeId → Bool} {q : ElementId → Bool} {doc : List Str}
    (hp : ∀ s n, p s n = match s.tagId n with
      | some e => q e
      | none => false)
    (h : ElementId.all.all (fun e => decide (q e = match e.asStr? with
      | .ok x => decide (x ∈ doc)
      | .error _ => false)) = true) : Documented p doc := by
  intro s n
  rw [hp]
  unfold St.tagId
  cases hn : s.tagName n with
  | name x => simp
  | id e =>
    have := ElementId.forall_of_all h e
    simp only [decide_eq_true_eq] at this
    simp only [QName.id.injEq]
    rw [this]
    constructor
    · intro hh
      split at hh
      · next x hx => exact ⟨e, x, rfl, hx, by simpa using hh⟩
      · simp at hh
    · rintro ⟨e', x, rfl, hx, hd⟩
      rw [hx]; simpa using hd

/-- C29: every element category is exactly the list in its documentation; in particular a node without an SVG tag name is in no
category. -/
theorem C29_documented :
    Documented St.isReferenced Doc.referenced ∧ Documented St.isBasicShape Doc.basicShape ∧ Documented St.isShape Doc.shape ∧
    Documented St.isContainer Doc.container ∧ Documented St.isTextContent Doc.textContent ∧
    Documented St.isTextContentChild Doc.textContentChild ∧ Documented St.isGraphic Doc.graphic ∧
    Documented St.isGradient Doc.gradient ∧ Documented St.isPaintServer Doc.paintServer ∧
    Documented St.isFilterPrimitive Doc.filterPrimitive := by
  refine ⟨?_, ?_, ?_, ?_, ?_, ?_, ?_, ?_, ?_, ?_⟩ <;> refine documented_of (fun _ _ => rfl) (by decide +kernel)

/-- C29: nodes with a non-SVG tag name are in no category. -/
theorem C29_other_names (s : St) (n : NodeId) {x : Str} (h : s.tagName n = .name x) :
    s.isReferenced n = false ∧ s.isBasicShape n = false ∧ s.isShape n = false ∧ s.isContainer n = false ∧
    s.isTextContent n = false ∧ s.isTextContentChild n = false ∧ s.isGraphic n = false ∧ s.isGradient n = false ∧
    s.isPaintServer n = false ∧ s.isFilterPrimitive n = false := by
  simp [St.isReferenced, St.isBasicShape, St.isShape, St.isContainer, St.isTextContent, St.isTextContentChild, St.isGraphic,
    St.isGradient, St.isPaintServer, St.isFilterPrimitive, St.tagId, h]

/-- C29: relations between attribute categories. -/
theorem C29_attributes (a : Attribute) :
    (a.isInheritable = true → a.isPresentation = true) ∧ (a.isFill = true → a.isPresentation = true) ∧
    (a.isStroke = true → a.isPresentation = true) ∧ ¬ (a.isFill = true ∧ a.isStroke = true) ∧
    (a.isPresentation = true → a.isAnimationEvent = false ∧ a.isGraphicalEvent = false ∧ a.isDocumentEvent = false ∧
      a.isConditionalProcessing = false ∧ a.isCore = false) := by
  simp only [Attribute.isInheritable, Attribute.isPresentation, Attribute.isFill, Attribute.isStroke, Attribute.isAnimationEvent,
    Attribute.isGraphicalEvent, Attribute.isDocumentEvent, Attribute.isConditionalProcessing, Attribute.isCore]
  cases a.name with
  | name x => simp
  | id i =>
    simp only
    refine ⟨imp_of_or (AttributeId.forall_of_all (p := fun i => !i.isInheritable || i.isPresentation) (by decide +kernel) i),
      imp_of_or (AttributeId.forall_of_all (p := fun i => !i.isFill || i.isPresentation) (by decide +kernel) i),
      imp_of_or (AttributeId.forall_of_all (p := fun i => !i.isStroke || i.isPresentation) (by decide +kernel) i), ?_, ?_⟩
    · have := AttributeId.forall_of_all (p := fun i => !(i.isFill && i.isStroke)) (by decide +kernel) i
      rintro ⟨h1, h2⟩
      simp [h1, h2] at this
    · have := AttributeId.forall_of_all (p := fun i => !i.isPresentation || (!i.isAnimationEvent && !i.isGraphicalEvent &&
        !i.isDocumentEvent && !i.isConditionalProcessing && !i.isCore)) (by decide +kernel) i
      intro hp
      simpa [hp, and_assoc] using this

/-- C29: the fill and stroke attributes are the documented ones. -/
theorem C29_fill_stroke (a : Attribute) :
    (a.isFill = true ↔ ∃ i name, a.name = .id i ∧ i.asStr? = .ok name ∧ name ∈ Doc.fill) ∧
    (a.isStroke = true ↔ ∃ i name, a.name = .id i ∧ i.asStr? = .ok name ∧ name ∈ Doc.stroke) := by
  simp only [Attribute.isFill, Attribute.isStroke]
  cases a.name with
  | name x => simp
  | id i =>
    have h := AttributeId.forall_of_all (p := fun i => match i.asStr? with
      | .ok x => decide (i.isFill = decide (x ∈ Doc.fill)) && decide (i.isStroke = decide (x ∈ Doc.stroke))
      | .error _ => false) (by decide +kernel) i
    simp only [QName.id.injEq]
    cases hx : i.asStr? with
    | error e => rw [hx] at h; simp at h
    | ok x =>
      rw [hx] at h
      simp only [Bool.and_eq_true, decide_eq_true_eq] at h
      rw [h.1, h.2]
      constructor
      · constructor
        · intro hh; exact ⟨i, x, rfl, hx, by simpa using hh⟩
        · rintro ⟨i', x', rfl, hx', hd⟩; rw [hx] at hx'; cases hx'; simpa using hd
      · constructor
        · intro hh; exact ⟨i, x, rfl, hx, by simpa using hh⟩
        · rintro ⟨i', x', rfl, hx', hd⟩; rw [hx] at hx'; cases hx'; simpa using hd

/-- Every category has a member, and a reachable document can contain it. -/
example : ∃ s, Reachable s ∧ s.live 1 = true ∧ s.isBasicShape 1 = true ∧ s.isGradient 2 = true ∧ s.isTextContentChild 3 = true := by
  obtain ⟨s, h, e⟩ := exists_of_holds
    (ops := [.createElement (.id .Rect), .createElement (.id .LinearGradient), .createElement (.id .Tspan)])
    (p := fun s => s.live 1 && s.isBasicShape 1 && s.isGradient 2 && s.isTextContentChild 3) (by decide +kernel)
  simp only [Bool.and_eq_true] at e
  exact ⟨s, h, e.1.1.1, e.1.1.2, e.1.2, e.2⟩

/-! ## C30 -/

/-- C30: a default attribute has the given name, refers to no node and is a presentation attribute. -/
theorem C30_default {i : AttributeId} {a : Attribute} (h : newDefault i = some a) :
    a.name = .id i ∧ (∀ n, a.value.refersTo n = false) ∧ a.value.isLinkContainer = false ∧ a.isPresentation = true := by
  unfold newDefault at h
  have hc := AttributeId.forall_of_all (p := fun i => match defaultValue i with
      | some v => decide (v.linkNode = none) && !v.isLinkContainer && i.isPresentation
      | none => true) (by decide +kernel) i
  cases hv : defaultValue i with
  | none => rw [hv] at h; simp at h
  | some v =>
    rw [hv] at h hc
    simp only [Option.some.injEq] at h
    subst h
    simp only [Bool.and_eq_true, decide_eq_true_eq, Bool.not_eq_true'] at hc
    refine ⟨rfl, fun n => ?_, hc.1.2, hc.2⟩
    rw [Bool.eq_false_iff]
    intro hr
    rw [refersTo_iff, hc.1.1] at hr
    simp at hr

/-- C30: setting a default attribute on an element never fails, and the element then has it with that value. -/
theorem C30_set {s : St} (h : Reachable s) {n : NodeId} (hn : s.live n = true) (he : s.isElement n = true) {i : AttributeId}
    {a : Attribute} (hd : newDefault i = some a) :
    ∃ t, s.setAttribute n a = .ok t ∧ attrsGetValue (t.attributes n) (.id i) = some a.value ∧
      ∀ m, s.live m = true → (∀ b ∈ s.attributes n, b.name = .id i → b.value.refersTo m = false) →
        t.linkedNodes m = s.linkedNodes m := by
  obtain ⟨h1, h2, h3, _⟩ := C30_default hd
  have hl : a.value.linkNode = none := by
    cases hx : a.value.linkNode with
    | none => rfl
    | some m => have := h2 m; rw [Bool.eq_false_iff] at this; exact absurd (refersTo_iff.2 hx) this
  have hc := St.setChecked_eq h.inv.link hn a (fun _ => he)
  rw [hl] at hc
  simp only [Option.bind_none] at hc
  refine ⟨_, by rw [St.setAttribute, hc]; rfl, ?_, ?_⟩
  · have := (C12_get h hn hc).2.1
    rw [h1] at this
    rw [this]
    congr 1
    unfold retag
    cases hv : a.value <;> rw [hv] at hl <;> simp_all [AttributeValue.linkNode]
  · intro m _ hm
    exact (C12_set h hn hc).2.2.2 m (by rw [h1]; exact hm) (h2 m)

/-- Defaults exist: `fill` is black, `stroke` is none; a non-presentation attribute has none. -/
example : newDefault .Fill = some ⟨.id .Fill, .color ⟨0, 0, 0⟩⟩ ∧ newDefault .Stroke = some ⟨.id .Stroke, .none⟩ ∧
    newDefault .Width = none := by decide +kernel

example : ∃ s t a, Reachable s ∧ newDefault .StrokeWidth = some a ∧ s.setAttribute 1 a = .ok t := by
  obtain ⟨s, h, e⟩ := exists_of_holds (ops := [.createElement (.id .Rect)]) (p := fun s => s.live 1 && s.isElement 1)
    (by decide +kernel)
  simp only [Bool.and_eq_true] at e
  have hd : newDefault .StrokeWidth = some ⟨.id .StrokeWidth, .length ⟨.fin 1, .none⟩⟩ := by decide +kernel
  obtain ⟨t, ht, _⟩ := C30_set h e.1 e.2 hd
  exact ⟨s, t, _, h, hd, ht⟩

end Svgdom
