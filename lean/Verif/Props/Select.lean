import Verif.Proof.ParseFinal
import Verif.Spec.Select
import Verif.Spec.Samples

/-!
# Selector matching: C56
-/

set_option autoImplicit false

namespace Svgdom

theorem places_level {x : Xml} {q : XmlPos × ElementId × List XmlAttr} : ∀ (y : Xml) {pos : XmlPos} {prev : List (Option XmlElem)} {sibs : Xml},
    x.Level pos sibs → sibs.Tail prev y → q ∈ y.places pos prev →
    ∃ parent prev' e sibs' kids rest, q.1 = .elem parent prev' e ∧ q.2.2 = e.attrs ∧ e.ns = some st!"http://www.w3.org/2000/svg" ∧
      elementNamed e.name = some q.2.1 ∧ x.Level parent sibs' ∧ sibs'.Tail prev' (.element e.ns e.name e.attrs kids rest)
  | .nil, _, _, _, _, _, h => by simp [Xml.places] at h
  | .element ns name attrs kids rest, pos, prev, sibs, hl, ht, h => by
    rw [Xml.places, List.mem_append] at h
    rcases h with h | h
    · split at h
      · simp at h
      · next eid he =>
        split at he
        · next hns =>
          rcases List.mem_cons.1 h with rfl | h
          · exact ⟨pos, prev, ⟨ns, name, attrs⟩, sibs, kids, rest, rfl, rfl, hns, he, hl, ht⟩
          · exact places_level kids (.kids hl ht) .start h
        · simp at he
    · exact places_level rest hl (.element ht) h
  | .text _ rest, _, _, _, hl, ht, h => places_level rest hl (.text ht) h
  | .comment _ rest, _, _, _, hl, ht, h => places_level rest hl (.comment ht) h
  | .pi rest, _, _, _, hl, ht, h => places_level rest hl (.pi ht) h

/-- C56: rules are applied to an element at its true place in the XML tree; name, attributes and parent that selectors see
are those of the element. (Missing for the full property: the preceding sibling.) -/
theorem C56_surroundings_partial {x : Xml} {q : XmlPos × ElementId × List XmlAttr} (hq : q ∈ x.places .root []) :
    ∃ parent prev e sibs kids rest, q.1 = .elem parent prev e ∧ x.Level parent sibs ∧
      sibs.Tail prev (.element e.ns e.name e.attrs kids rest) ∧ elementNamed e.name = some q.2.1 ∧ q.2.2 = e.attrs ∧
      (∀ n, q.1.hasLocalName n = true ↔ n = e.name) ∧
      (∀ n op, q.1.attributeMatches n op = true ↔ ∃ v, (e.attrs.find? fun a => decide (a.ns = none ∧ a.name = n)).map (·.value) = some v ∧ op v = true) ∧
      (q.1.parentElement = none ↔ parent = .root) ∧ (∀ p, q.1.parentElement = some p → p = parent) := by
  obtain ⟨parent, prev, e, sibs, kids, rest, h1, h2, h3, h4, h5, h6⟩ := places_level x .top .start hq
  refine ⟨parent, prev, e, sibs, kids, rest, h1, h5, h6, h4, h2, ?_, ?_, ?_, ?_⟩
  · intro n; rw [h1]; simp [XmlPos.hasLocalName, eq_comm]
  · intro n op
    rw [h1]
    simp only [XmlPos.attributeMatches, xmlAttribute]
    split
    · next v hv => simp only [hv, Option.some.injEq, exists_eq_left']
    · next hv => rw [hv]; simp
  · rw [h1]; cases parent <;> simp [XmlPos.parentElement]
  · intro p hp; rw [h1] at hp; cases parent <;> simp [XmlPos.parentElement] at hp; exact hp.symm

/-- C56 does not hold for the preceding sibling: an element is always taken as its own predecessor, so `:first-child` never matches. -/
theorem C56_previous_refuted (parent : XmlPos) (prev : List (Option XmlElem)) (e : XmlElem) :
    let p : XmlPos := .elem parent prev e
    p.prevSiblingElement = some p ∧ ¬ p.PrevElement p ∧ p.isFirstChild = false := by
  intro p
  have h : p.prevSiblingElement = some p := rfl
  refine ⟨h, ?_, by rw [XmlPos.isFirstChild, h]; rfl⟩
  rintro ⟨parent', prev', e', before, near, e'', h1, h2, _, h3⟩
  injection h1 with h1 h4 h5
  injection h3 with h3 h6 h7
  subst h4 h6
  have := congrArg List.length h2
  simp at this
  omega

/-- `sampleLib` with the one rule `rect:first-child{fill:green}`. -/
def firstChildLib : Lib :=
  { sampleLib with sheet := fun _ => [⟨fun p => p.hasLocalName st!"rect" && p.isFirstChild, [(st!"fill", st!"green")]⟩] }

/-- C56 does not hold: in `<svg><rect/></svg>` the rule `rect:first-child{fill:green}` has no effect although the rectangle is the first
child. -/
theorem C56_first_child_refuted : ∃ t, parseSvg firstChildLib true (xe st!"svg" [] (xe st!"rect" [] .nil .nil) .nil) = .ok t ∧
    t.InTree 2 ∧ t.tagName 2 = .id .Rect ∧ t.prevSibling 2 = none ∧ t.attributes 2 = [] := by
  have key : (match parseSvg firstChildLib true (xe st!"svg" [] (xe st!"rect" [] .nil .nil) .nil) with
      | .ok t => t.live 2 && decide (t.parent 2 = some 1) && decide (t.parent 1 = some t.rootId) && decide (t.tagName 2 = .id .Rect) &&
        decide (t.prevSibling 2 = none) && decide (t.attributes 2 = [])
      | .error _ => false) = true := by decide +kernel
  split at key
  · next t e =>
    simp only [Bool.and_eq_true, decide_eq_true_eq] at key
    obtain ⟨⟨⟨⟨⟨p1, p2⟩, p3⟩, p4⟩, p5⟩, p6⟩ := key
    exact ⟨t, e, ⟨p1, .head (b := 1) p2 (.single p3)⟩, p4, p5, p6⟩
  · simp at key

/-- A document with a `g` between a text and two rectangles: the place of the second rectangle. -/
example : let x := xe st!"svg" [] (.text st!" " (xe st!"g" [] .nil (.comment st!"c" (xe st!"rect" [xa st!"id" st!"r"] .nil .nil)))) .nil
    ∃ q ∈ x.places .root [], q.2.1 = .Rect ∧ ∃ g, q.1.PrevElement g ∧ g.hasLocalName st!"g" = true := by
  refine ⟨_, by simp [Xml.places, xe, show elementNamed st!"svg" = some .Svg by decide +kernel, show elementNamed st!"g" = some .G by decide +kernel,
    show elementNamed st!"rect" = some .Rect by decide +kernel, svgNs]; right; right; rfl, rfl, _,
    ⟨_, _, _, _, [none], _, rfl, rfl, by simp, rfl⟩, by decide +kernel⟩

end Svgdom
