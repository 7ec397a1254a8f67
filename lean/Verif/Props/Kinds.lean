import Verif.Proof.Debug
import Verif.Props.Builds

/-!
# C119: what a node has depends on its type

The documentation of node.rs says that only elements can have an id and attributes, and that elements cannot have text.
-/

set_option autoImplicit false

namespace Svgdom

/-- C119: in debug builds a node that is not an element has no tag name, no id and no attributes, and no attribute refers to it. -/
theorem C119_others_partial {s : St} (h : Reachable s) (hd : s.debug = true) {i : NodeId} (hi : s.live i = true)
    (hne : s.nodeType i ≠ .element) :
    s.tagName i = .name [] ∧ s.idOf i = [] ∧ s.attributes i = [] ∧ s.linkedNodes i = [] := by
  refine ⟨(h.named hd i hi hne).1, (h.named hd i hi hne).2, ?_, ?_⟩
  · by_contra hc
    exact hne (h.attrsOnElements hd i hi hc)
  · by_contra hc
    exact hne (h.linkedElements hd i hi hc)

/-- C119: and after any calls of a debug build elements have no text; this leaves out edits through `text_mut`. -/
theorem C119_elements_partial {ops : List Op} {s : St} (e : runAll (St.init true) ops = .ok s) {i : NodeId} (hi : s.live i = true)
    (he : s.nodeType i = .element) : s.text i = [] := by
  suffices hx : OfNodes NodeData.silent s ∧ s.debug = true from hx.1 hx.2 i hi he
  have key : ∀ (ops : List Op) (s t : St), Reachable s → OfNodes NodeData.silent s → s.debug = true → runAll s ops = .ok t →
      OfNodes NodeData.silent t ∧ t.debug = true := by
    intro ops
    induction ops with
    | nil => intro s t _ h hd e; cases e; exact ⟨h, hd⟩
    | cons op ops ih =>
      intro s t hs h hd e
      rw [runAll] at e
      split at e
      · next hl =>
        have hl : ∀ i ∈ op.handles, s.live i = true := by simpa using hl
        split at e
        · next u e' =>
          exact ih u t (.call op hs hl e') (op_silent hs.inv h op hl e') (by rw [op_debug hs.inv op hl e']; exact hd) e
        · cases e
      · cases e
  exact key ops _ _ (.init true) (by intro _ j hj hh; simp [St.init, NodeData.fresh] at hh) rfl e

theorem parse_debug {L : Lib} {debug : Bool} {x : Xml} {t : St} (e : parseSvg L debug x = .ok t) : t.debug = debug := by
  obtain ⟨_, p, T, G, s2, s3, u, f, hp⟩ := parse_ok e
  rw [hp.removed.debug, hp.ti.debug, f.resolves.same.debug, f.removed.debug, f.adds.grown.debug]
  rfl

/-- C119: in a parsed document this holds in every build. -/
theorem C119_parsed {L : Lib} {debug : Bool} {x : Xml} {t : St} (e : parseSvg L debug x = .ok t) {i : NodeId} (hi : t.live i = true)
    (hne : t.nodeType i ≠ .element) :
    t.tagName i = .name [] ∧ t.idOf i = [] ∧ t.attributes i = [] ∧ t.linkedNodes i = [] := by
  cases debug with
  | true => exact C119_others_partial (C44_reachable e).1.reachable (parse_debug e) hi hne
  | false =>
    rw [C120_parse] at e
    cases e' : parseSvg L true x with
    | error err => rw [e'] at e; cases e
    | ok t' =>
      rw [e'] at e
      cases e
      exact C119_others_partial (s := t') (C44_reachable e').1.reachable (parse_debug e') hi hne

/-- C119 is false in release builds: a comment can be given a tag name, an id and an attribute. -/
theorem C119_refuted : ∃ s, Reachable s ∧ s.live 1 = true ∧ s.nodeType 1 = .comment ∧ s.tagName 1 = .id .G ∧ s.idOf 1 = ['a'] ∧
    s.attributes 1 = [⟨.id .X, .string ['1']⟩] := by
  have key : okAnd (runAll (St.init false) [.createNode .comment ['c'], .setTagName 1 (.id .G), .setId 1 ['a'],
      .setAttribute 1 ⟨.id .X, .string ['1']⟩])
    (fun s => s.live 1 && decide (s.nodeType 1 = .comment ∧ s.tagName 1 = .id .G ∧ s.idOf 1 = ['a'] ∧
      s.attributes 1 = [⟨.id .X, .string ['1']⟩])) = true := by decide +kernel
  obtain ⟨s, e0, e⟩ := okAnd_iff.1 key
  simp only [Bool.and_eq_true, decide_eq_true_eq] at e
  exact ⟨s, runAll_reachable (.init false) e0, e.1, e.2⟩

/-- C119 is also false in debug builds for edits through `text_mut`, which can give an element a text. -/
theorem C119_text_refuted : ∃ s, Reachable s ∧ s.debug = true ∧ s.live 1 = true ∧ s.nodeType 1 = .element ∧ s.text 1 = ['c'] := by
  obtain ⟨s, h, e⟩ := exists_of_holds (ops := [.createElement (.id .G)])
    (p := fun s => s.live 1 && s.debug && decide (s.nodeType 1 = .element)) (by decide +kernel)
  simp only [Bool.and_eq_true, decide_eq_true_eq] at e
  have he : s.Edit (s.editText 1 ['c']) := .text 1 ['c'] e.1.1
  exact ⟨_, .edit h he, by rw [he.debug]; exact e.1.2, by rw [he.live]; exact e.1.1, by rw [he.nodeType]; exact e.2,
    by simp [St.editText, St.text, St.setD]⟩

/-- A comment and an element that has an id, an attribute and a reference to it. -/
example : ∃ s, runAll (St.init true) [.createNode .comment ['c'], .createElement (.id .LinearGradient), .createElement (.id .Rect),
      .setId 2 ['g'], .setAttribute 3 ⟨.id .Fill, .link 2⟩] = .ok s ∧
    s.debug = true ∧ s.live 1 = true ∧ s.nodeType 1 ≠ .element ∧ s.text 1 = ['c'] ∧ s.live 2 = true ∧ s.nodeType 2 = .element ∧
    s.idOf 2 = ['g'] ∧ s.linkedNodes 2 = [3] := by
  have key : okAnd (runAll (St.init true) [.createNode .comment ['c'], .createElement (.id .LinearGradient), .createElement (.id .Rect),
      .setId 2 ['g'], .setAttribute 3 ⟨.id .Fill, .link 2⟩])
    (fun s => decide (s.debug = true ∧ s.live 1 = true ∧ s.nodeType 1 ≠ .element ∧ s.text 1 = ['c'] ∧ s.live 2 = true ∧
      s.nodeType 2 = .element ∧ s.idOf 2 = ['g'] ∧ s.linkedNodes 2 = [3])) = true := by decide +kernel
  obtain ⟨s, e0, e⟩ := okAnd_iff.1 key
  exact ⟨s, e0, by simpa using e⟩

end Svgdom
