import Verif.Proof.Inline
import Verif.Props.Shuffle

/-!
# C113: CSS can be resolved by hand
-/

set_option autoImplicit false

namespace Svgdom

theorem Content.Alike.refl : ∀ d : Content, d.Alike d
  | .nil => .nil
  | .node n l K R => .node n (.refl l) (.refl K) (.refl R)

/-- The same document is written in the same way. -/
theorem written_of_doc {L : Lib} {debug debug' : Bool} {x y : Xml} {s t : St} (e : parseSvg L debug x = .ok s)
    (e' : parseSvg L debug' y = .ok t) (h : parsedDoc L x = parsedDoc L y) (W : ValueWriter) : s.writeDom W = t.writeDom W := by
  obtain ⟨_, F, hF, hT, h1⟩ := C95_parse e
  obtain ⟨_, G, hG, hU, h2⟩ := C95_parse e'
  rw [← h] at hU h2
  have hR := (C44_reachable e).1.reachable
  have hr : s.live s.rootId = true := by obtain ⟨_, hti⟩ := hR.inv.tree; exact hti.root
  have hl : ∀ i ∈ F.kids s.rootId, s.live i = true := fun i hi => (hF.wf.kids _ hr i hi).1
  have hlive := pre_live hF hT hl
  refine C92_same hR (C44_tree e).2 (C44_reachable e').1.reachable (C44_tree e').2 hF hG hT hU
    ?_ (plain_parsed e hF hT) (plain_parsed e' hG hU) ?_ ?_ W
  · unfold SameDoc
    refine same_alike (Content.Alike.refl _) h1 h2 (fun n hn => C11_unique_names hR (hlive n hn)) ?_
    intro n hn a ha m hm
    obtain ⟨hf, _⟩ := C63_first e hF hT hn ⟨a, ha, hm⟩
    exact zip_self (List.mem_of_find?_eq_some hf)
  · intro n hn a ha
    obtain ⟨_, i, _, h, _⟩ := C57_types e ⟨hlive n hn, (mem_pre_kids hF hr hT (hlive n hn)).1 hn⟩ ha
    exact ⟨i, h⟩
  · intro n hn a ha m hm
    exact (C63_first e hF hT hn ⟨a, ha, hm⟩).2.2.2

/-- No CSS is left. -/
theorem C113_no_css (L : Lib) (x : Xml) : styleTexts (x.withoutCss L) = [] ∧
    ∀ e ∈ (x.withoutCss L).elements, ∀ a ∈ e.2.1, a.name ≠ st!"style" := by
  refine ⟨withoutCss_sheets L x, ?_⟩
  have hide : ∀ x : Xml, ∀ e ∈ x.hideText.elements, e ∈ x.elements := by
    intro x
    cases x with
    | text t rest => by_cases hb : isBlank t = true <;> simp [Xml.hideText, hb, Xml.elements]
    | _ => exact fun e he => he
  suffices h : ∀ (x : Xml) (sheet : List Rule) (pos : XmlPos) (prev : List (Option XmlElem)),
      ∀ e ∈ (x.inlined L sheet pos prev).elements, ∀ a ∈ e.2.1, a.name ≠ st!"style" from h x _ _ _
  intro x sheet
  induction x with
  | nil => intro _ _ e he; simp [Xml.inlined, Xml.elements] at he
  | element ns name attrs kids rest ih1 ih2 =>
    intro pos prev e he a ha
    simp only [Xml.inlined, Xml.elements, List.mem_cons, List.mem_append] at he
    rcases he with rfl | he | he
    · simp only [List.mem_append] at ha
      rcases ha with ha | ha
      · simpa using (List.mem_filter.1 ha).2
      · obtain ⟨g, hg, rfl⟩ := List.mem_map.1 ha
        exact asAttr_name (cssAssigns_css L sheet _ attrs g (by simpa using hg))
    · split at he
      · exact ih1 _ _ e (hide _ e he) a ha
      · exact ih1 _ _ e he a ha
    · exact ih2 _ _ e he a ha
  | text t rest ih => intro pos prev e he; exact ih _ _ e he
  | comment t rest ih => intro pos prev e he; exact ih _ _ e he
  | pi rest ih => intro pos prev e he; exact ih _ _ e he

/-- C113: with the CSS resolved by hand, parsing gives the same document. -/
theorem C113_document {L : Lib} (hL : L.sheet [] = []) (x : Xml) : parsedDoc L x = parsedDoc L (x.withoutCss L) :=
  close_parsed (withoutCss_close hL x)

/-- C113: it succeeds for the same documents, both results show the same document, and the same is written. -/
theorem C113_same {L : Lib} (hL : L.sheet [] = []) (debug : Bool) (x : Xml) :
    ((∃ s, parseSvg L debug x = .ok s) ↔ ∃ t, parseSvg L debug (x.withoutCss L) = .ok t) ∧
    ∀ s t, parseSvg L debug x = .ok s → parseSvg L debug (x.withoutCss L) = .ok t →
      (∃ d : Content, d.Shown s ∧ d.Shown t) ∧ ∀ W : ValueWriter, s.writeDom W = t.writeDom W := by
  refine ⟨?_, fun s t e e' => ⟨⟨_, C95_parse e, by rw [C113_document hL x]; exact C95_parse e'⟩, written_of_doc e e' (C113_document hL x)⟩⟩
  rw [C31_svg, C31_svg]
  have : ∀ (x : Xml) (sheet : List Rule) (pos : XmlPos) (prev : List (Option XmlElem)), (x.inlined L sheet pos prev).topSvg = x.topSvg := by
    intro x sheet
    induction x with
    | nil => intros; rfl
    | element ns name attrs kids rest _ ih => intros; simp only [Xml.inlined, Xml.topSvg, ih]
    | text t rest ih => intros; exact ih _ _
    | comment t rest ih => intros; exact ih _ _
    | pi rest ih => intros; exact ih _ _
  rw [Xml.withoutCss, this]

/-- A style sheet, a `style` attribute and attributes. -/
def cssXml : Xml :=
  xe st!"svg" [] (xe st!"style" [] (.text st!"rect{fill:green;x:5}" .nil) <|
    xe st!"rect" [xa st!"id" st!"r", xa st!"x" st!"5", xa st!"style" st!"stroke:red;opacity:0.5"] .nil .nil) .nil

/-- The same with its CSS resolved. -/
def resolvedXml : Xml :=
  xe st!"svg" [] (xe st!"style" [] (.comment [] .nil) <|
    xe st!"rect" [xa st!"id" st!"r", xa st!"x" st!"5", xa st!"fill" st!"green", xa st!"stroke" st!"red", xa st!"opacity" st!"0.5"] .nil .nil) .nil

/-- The hypothesis is met, and the documents are not trivial: the attributes come from three places. -/
example : sampleLib.sheet [] = [] ∧ cssXml.withoutCss sampleLib = resolvedXml ∧ (∃ s, parseSvg sampleLib true cssXml = .ok s) ∧
    parsedAttrs sampleLib cssXml 4 = [⟨.id .X, .length ⟨.fin 5, .none⟩⟩, ⟨.id .Fill, .color ⟨0, 128, 0⟩⟩, ⟨.id .Stroke, .color ⟨255, 0, 0⟩⟩,
      ⟨.id .Opacity, .number (.fin (1/2))⟩] := by
  refine ⟨rfl, by decide +kernel, (C31_svg _ _ _).2 (by decide +kernel), by decide +kernel⟩

end Svgdom
