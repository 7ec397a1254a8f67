import Verif.Props.Parse

/-!
# C80: which style sheets are applied
-/

set_option autoImplicit false

namespace Svgdom

/-- All text directly inside an element, if there is any. -/
def wholeText : Xml → Option Str
  | .nil => none
  | .text t rest => some (t ++ (wholeText rest).getD [])
  | .element _ _ _ _ rest => wholeText rest
  | .comment _ rest => wholeText rest
  | .pi rest => wholeText rest

/-- The style sheets of a document, each with its whole text. -/
def wholeSheets (x : Xml) : List Str := (x.elements.filter fun e => decide (IsSheet e)).filterMap fun e => wholeText e.2.2

/-- C80, exactly what is used: the leading texts of the `style` elements with type `text/css` or no type, in document order. -/
theorem C80_used_partial (x : Xml) : cssTexts x = styleTexts x := cssTexts_eq x

/-- C80, what holds: if the content of every style sheet is one piece of text or empty, all style sheets are used in full. -/
theorem C80_whole_partial {x : Xml} (h : ∀ e ∈ x.elements, IsSheet e → e.2.2 = .nil ∨ ∃ t, e.2.2 = .text t .nil) :
    cssTexts x = wholeSheets x := by
  rw [cssTexts_eq, styleTexts, wholeSheets]
  apply List.filterMap_congr
  intro e he
  rw [List.mem_filter, decide_eq_true_eq] at he
  rcases h e he.1 he.2 with h1 | ⟨t, h1⟩ <;> simp [h1, leadingText, wholeText]

/-- `<svg><style>` content `</style><rect/></svg>` -/
def sheetDoc (content : Xml) : Xml :=
  xe st!"svg" [] (xe st!"style" [] content (xe st!"rect" [] .nil .nil)) .nil

/-- C80 is false: a comment before the text of a style sheet hides the text. The rectangle is filled only if the text stands alone. -/
theorem C80_refuted : ∃ (L : Lib) (x y : Xml) (s t : St), wholeSheets x = wholeSheets y ∧
    parseSvg L true x = .ok s ∧ parseSvg L true y = .ok t ∧
    (∃ n, s.InTree n ∧ s.tagName n = .id .Rect ∧ s.hasAttribute n (.id .Fill) = true) ∧
    (∃ n, t.InTree n ∧ t.tagName n = .id .Rect) ∧ ∀ n, t.InTree n → t.hasAttribute n (.id .Fill) = false := by
  obtain ⟨s, hs, e⟩ := exists_of_parsed (x := sheetDoc (.text st!"rect{fill:green}" .nil))
    (p := fun s => s.live 4 && decide (s.parent 4 = some 1 ∧ s.parent 1 = some s.rootId ∧ s.tagName 4 = .id .Rect) &&
      s.hasAttribute 4 (.id .Fill)) (by decide +kernel)
  obtain ⟨t, ht, e'⟩ := exists_of_parsed (x := sheetDoc (.comment st!"c" (.text st!"rect{fill:green}" .nil)))
    (p := fun s => s.live 5 && decide (s.parent 5 = some 1 ∧ s.parent 1 = some s.rootId ∧ s.tagName 5 = .id .Rect) &&
      (List.range s.nextId).all fun n => !s.hasAttribute n (.id .Fill)) (by decide +kernel)
  simp only [Bool.and_eq_true, decide_eq_true_eq, List.all_eq_true, List.mem_range, Bool.not_eq_true'] at e e'
  obtain ⟨⟨h1, h2, h3, h4⟩, h5⟩ := e
  obtain ⟨⟨k1, k2, k3, k4⟩, k5⟩ := e'
  exact ⟨sampleLib, _, _, s, t, by decide +kernel, hs, ht, ⟨4, ⟨h1, .head h2 (.single h3)⟩, h4, h5⟩,
    ⟨5, ⟨k1, .head k2 (.single k3)⟩, k4⟩, fun n hn => k5 n ((C44_reachable ht).1.reachable.inv.liveBelow n hn.1)⟩

/-- `C80_whole_partial` for a document with two style sheets and a `style` element of another type. -/
example : ∃ x : Xml, (∀ e ∈ x.elements, IsSheet e → e.2.2 = .nil ∨ ∃ t, e.2.2 = .text t .nil) ∧
    cssTexts x = [st!"a", st!"b"] ∧ x.elements.length = 4 := by
  refine ⟨xe st!"svg" [] (xe st!"style" [] (.text st!"a" .nil) <| xe st!"style" [xa st!"type" st!"text/less"] (.text st!"z" .nil) <|
    xe st!"style" [xa st!"type" st!"text/css"] (.text st!"b" .nil) .nil) .nil, ?_, by decide +kernel, by decide +kernel⟩
  intro e he _
  simp only [xe, Xml.elements, List.mem_cons, List.append_nil, List.nil_append, List.not_mem_nil, or_false] at he
  rcases he with rfl | rfl | rfl | rfl
  · exact absurd ‹IsSheet _› (by decide +kernel)
  · exact .inr ⟨_, rfl⟩
  · exact .inr ⟨_, rfl⟩
  · exact .inr ⟨_, rfl⟩

end Svgdom
