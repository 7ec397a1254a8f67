import Verif.Proof.Noise
import Verif.Props.Distinct
import Verif.Props.Sheets

/-!
# C90: content that leaves no trace
-/

set_option autoImplicit false

namespace Svgdom

/-- C90, the general form: the parsed document depends on the XML document only through the expected DOM. If two XML documents have the
same expected DOM, the results are equal in everything, node ids and errors included. -/
theorem C90_dom {L : Lib} (debug : Bool) {x y : Xml} (h : svgDom L x = svgDom L y) : parseSvg L debug x = parseSvg L debug y :=
  parse_of_dom debug h

/-- C90, what holds: if the style sheets have the same rules with and without the content, and the selectors look at elements only
through the functions they are given, content that is not SVG can be left out. -/
theorem C90_partial {L : Lib} (debug : Bool) {x y : Xml} (h : Xml.Less none x y)
    (hs : L.sheet (styleTexts y) = L.sheet (styleTexts x)) (ha : ∀ r ∈ L.sheet (styleTexts x), r.Asks) :
    parseSvg L debug x = parseSvg L debug y := by
  refine C90_dom debug ?_
  rw [svgDom, svgDom, hs]
  exact less_dom L ha h [] [] .root

theorem sampleLib_asks (l : List Str) : ∀ r ∈ sampleLib.sheet l, r.Asks := by
  intro r hr R hR p q h
  obtain ⟨t, _, ht⟩ := List.mem_filterMap.1 hr
  unfold sampleRule at ht
  split at ht
  · injection ht with ht
    subst ht
    exact hR.name p q h _
  · simp at ht

/-- C90 is false: a style sheet in an element that is not SVG applies to the whole document. -/
theorem C90_refuted : ∃ (L : Lib) (x y : Xml) (s t : St), Xml.Less none x y ∧ (∀ l, ∀ r ∈ L.sheet l, r.Asks) ∧
    parseSvg L true x = .ok s ∧ parseSvg L true y = .ok t ∧
    (∃ n, s.InTree n ∧ s.tagName n = .id .Rect ∧ s.hasAttribute n (.id .Fill) = true) ∧
    ∀ n, t.InTree n → t.hasAttribute n (.id .Fill) = false := by
  obtain ⟨s, hs, e⟩ := exists_of_parsed (x := xe st!"svg" []
    (.element (some st!"urn:a") st!"a" [] (xe st!"style" [] (.text st!"rect{fill:green}" .nil) .nil) (xe st!"rect" [] .nil .nil)) .nil)
    (p := fun s => s.live 2 && decide (s.parent 2 = some 1 ∧ s.parent 1 = some s.rootId ∧ s.tagName 2 = .id .Rect) &&
      s.hasAttribute 2 (.id .Fill)) (by decide +kernel)
  obtain ⟨t, ht, e'⟩ := exists_of_parsed (x := xe st!"svg" [] (xe st!"rect" [] .nil .nil) .nil)
    (p := fun s => (List.range s.nextId).all fun n => !s.hasAttribute n (.id .Fill)) (by decide +kernel)
  simp only [Bool.and_eq_true, decide_eq_true_eq, List.all_eq_true, List.mem_range, Bool.not_eq_true'] at e e'
  obtain ⟨⟨h1, h2, h3, h4⟩, h5⟩ := e
  refine ⟨sampleLib, _, _, s, t, ?_, sampleLib_asks, hs, ht, ⟨2, ⟨h1, .head h2 (.single h3)⟩, h4, h5⟩,
    fun n hn => e' n ((C44_reachable ht).1.reachable.inv.liveBelow n hn.1)⟩
  exact .element _ _ .nil (.dropElement (by decide +kernel) (.element _ _ .nil (.nil _) (.nil _))) (.nil _)

/-- C90 is false also if only a processing instruction is left out: it hides the text of a style sheet. -/
theorem C90_refuted_instruction : ∃ (L : Lib) (x y : Xml) (s t : St), Xml.Less none x y ∧ (∀ l, ∀ r ∈ L.sheet l, r.Asks) ∧
    parseSvg L true x = .ok s ∧ parseSvg L true y = .ok t ∧
    (∃ n, t.InTree n ∧ t.tagName n = .id .Rect ∧ t.hasAttribute n (.id .Fill) = true) ∧
    ∀ n, s.InTree n → s.hasAttribute n (.id .Fill) = false := by
  obtain ⟨t, ht, e⟩ := exists_of_parsed (x := sheetDoc (.text st!"rect{fill:green}" .nil))
    (p := fun s => s.live 4 && decide (s.parent 4 = some 1 ∧ s.parent 1 = some s.rootId ∧ s.tagName 4 = .id .Rect) &&
      s.hasAttribute 4 (.id .Fill)) (by decide +kernel)
  obtain ⟨s, hs, e'⟩ := exists_of_parsed (x := sheetDoc (.pi (.text st!"rect{fill:green}" .nil)))
    (p := fun s => (List.range s.nextId).all fun n => !s.hasAttribute n (.id .Fill)) (by decide +kernel)
  simp only [Bool.and_eq_true, decide_eq_true_eq, List.all_eq_true, List.mem_range, Bool.not_eq_true'] at e e'
  obtain ⟨⟨h1, h2, h3, h4⟩, h5⟩ := e
  refine ⟨sampleLib, _, _, s, t, ?_, sampleLib_asks, hs, ht, ⟨4, ⟨h1, .head h2 (.single h3)⟩, h4, h5⟩,
    fun n hn => e' n ((C44_reachable hs).1.reachable.inv.liveBelow n hn.1)⟩
  exact .element _ _ .nil (.element _ _ .nil (.dropPi (.text _ (.nil _))) (.element _ _ .nil (.nil _) (.nil _))) (.nil _)

theorem attrsLess_known (as : List XmlAttr) : AttrsLess as (as.filter XmlAttr.known) := by
  induction as with
  | nil => exact .nil
  | cons a as ih =>
    rw [List.filter_cons]
    split
    · exact .keep a ih
    · next h =>
      refine .drop ⟨?_, ?_⟩ ih
      · intro hn; simp [XmlAttr.known, hn] at h
      · simp [XmlAttr.aid, h]

theorem less_onlyKnown : ∀ (x : Xml) (tag : Option ElementId), Xml.Less tag x x.onlyKnown
  | .nil, tag => .nil tag
  | .element ns name as kids rest, tag => .element ns name (attrsLess_known as) (less_onlyKnown kids _) (less_onlyKnown rest tag)
  | .text t rest, tag => .text t (less_onlyKnown rest tag)
  | .comment t rest, tag => .comment t (less_onlyKnown rest tag)
  | .pi rest, tag => .pi (less_onlyKnown rest tag)

/-- C90 for attributes of other vocabularies: they can be left out whatever the style sheets are, as long as selectors look at elements
only through the functions they are given. -/
theorem C90_attributes (L : Lib) (debug : Bool) (x : Xml) (ha : ∀ r ∈ L.sheet (styleTexts x), r.Asks) :
    parseSvg L debug x = parseSvg L debug x.onlyKnown := by
  refine C90_partial debug (less_onlyKnown x none) ?_ ha
  rw [← cssTexts_eq, ← cssTexts_eq, onlyKnown_css]

/-- A document with a style sheet, an unknown element and an element of another vocabulary, a processing instruction, blank texts, and an
attribute of another vocabulary. -/
def noisyXml : Xml :=
  .pi <| xe st!"svg" [⟨some st!"urn:a", st!"fill", st!"red"⟩] (xe st!"style" [] (.text st!"rect{fill:green}" .nil) <| .text st!" " <|
    xe st!"unknown" [] (xe st!"rect" [] .nil .nil) <| .element none st!"rect" [] .nil <| xe st!"rect" [] .nil <| .pi .nil) .nil

def quietXml : Xml :=
  xe st!"svg" [] (xe st!"style" [] (.text st!"rect{fill:green}" .nil) <| xe st!"rect" [] .nil .nil) .nil

/-- Hypotheses of `C90_partial` and of `C90_dom`: the noise is left out. The document is parsed and the rule applied. -/
example : ∃ s, Xml.Less none noisyXml quietXml ∧ noisyXml ≠ quietXml ∧
    sampleLib.sheet (styleTexts quietXml) = sampleLib.sheet (styleTexts noisyXml) ∧
    (∀ r ∈ sampleLib.sheet (styleTexts noisyXml), r.Asks) ∧ svgDom sampleLib noisyXml = svgDom sampleLib quietXml ∧
    parseSvg sampleLib true noisyXml = .ok s ∧ parseSvg sampleLib true quietXml = .ok s ∧
    ∃ n, s.InTree n ∧ s.hasAttribute n (.id .Fill) = true := by
  obtain ⟨s, hs, e⟩ := exists_of_parsed (x := quietXml)
    (p := fun s => s.live 4 && decide (s.parent 4 = some 1 ∧ s.parent 1 = some s.rootId ∧ s.tagName 4 = .id .Rect) &&
      s.hasAttribute 4 (.id .Fill)) (by decide +kernel)
  simp only [Bool.and_eq_true, decide_eq_true_eq] at e
  obtain ⟨⟨h1, h2, h3, h4⟩, h5⟩ := e
  have hl : Xml.Less none noisyXml quietXml := by
    refine .dropPi (.element _ _ (.drop ⟨by decide, by decide +kernel⟩ .nil) (.element _ _ .nil (.text _ (.nil _)) ?_) (.nil _))
    refine .dropText (by decide +kernel) (by decide +kernel) (.dropElement (by decide +kernel) (.dropElement (by decide +kernel) ?_))
    exact .element _ _ .nil (.nil _) (.dropPi (.nil _))
  have hst : styleTexts quietXml = styleTexts noisyXml := by decide +kernel
  refine ⟨s, hl, by decide +kernel, by rw [hst], sampleLib_asks _, ?_, ?_, hs, 4, ⟨h1, .head h2 (.single h3)⟩, h5⟩
  · rw [svgDom, svgDom, hst]
    exact less_dom _ (sampleLib_asks _) hl [] [] .root
  · rw [C90_partial true hl (by rw [hst]) (sampleLib_asks _), hs]

/-- `C90_attributes` on a document with a style sheet and such an attribute. -/
example : ∃ s, noisyXml.onlyKnown ≠ noisyXml ∧ (∀ r ∈ sampleLib.sheet (styleTexts noisyXml), r.Asks) ∧
    (sampleLib.sheet (styleTexts noisyXml)).length = 1 ∧ parseSvg sampleLib true noisyXml = .ok s := by
  obtain ⟨s, hs, _⟩ := exists_of_parsed (x := noisyXml) (p := fun _ => true) (by decide +kernel)
  exact ⟨s, by decide +kernel, sampleLib_asks _, by decide +kernel, hs⟩

end Svgdom
