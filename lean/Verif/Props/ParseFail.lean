import Verif.Proof.ParseFail
import Verif.Props.Memory

/-!
# C94: refused documents
-/

set_option autoImplicit false

namespace Svgdom

/-- C94: the parser that keeps the document shows its caller the same as the parser, and never panics. -/
theorem C94_exact (L : Lib) (debug : Bool) (x : Xml) :
    (∀ s, parseSvg L debug x = .ok s ↔ parseSvgU L debug x = .ok (s, true)) ∧
    (parseSvg L debug x = .error .noSvgElement ↔ ∃ s, parseSvgU L debug x = .ok (s, false)) ∧
    ∀ err, parseSvgU L debug x ≠ .error err := by
  have h := parseSvgU_seen L debug x
  have hp := C44_no_panic L debug x
  cases hu : parseSvgU L debug x with
  | error err => rw [hu] at h; exact absurd h.symm (hp err)
  | ok r =>
    obtain ⟨s, b⟩ := r
    rw [hu] at h
    cases b <;> rw [← h] <;> simp [seen]

theorem Dom.upToElement_attrs {P : List Attribute → Prop} : ∀ {D : Dom}, D.Attrs P → D.upToElement.Attrs P
  | .nil, _ => trivial
  | .element _ _ _ _ _ _, h => ⟨h.1, h.2.1, trivial⟩
  | .text _ r, h => Dom.upToElement_attrs (D := r) h
  | .comment _ r, h => Dom.upToElement_attrs (D := r) h

/-- C94: when the parser gives up, the document has exactly the nodes that are expected up to the first element on the top level: the
parser looks no further. Public calls could have made it, no node is below itself, and nothing is linked. -/
theorem C94_built {L : Lib} {debug : Bool} {x : Xml} {s : St} (e : parseSvgU L debug x = .ok (s, false)) :
    Reachable s ∧ s.Acyclic ∧ (∀ i j, s.live i = true → ¬ s.LinksTo i j) ∧
    ∃ (F : Forest) (T : Trees), Describes s F ∧ T.Of F (F.kids s.rootId) ∧ (svgDom L x).upToElement.Is s T ∧
      ∀ i, s.live i = true ↔ i = s.rootId ∨ i ∈ T.pre := by
  obtain ⟨p, T, l, G, rfl, ad⟩ := parseSvgU_fails e
  have hlive : ∀ i, p.dom.live i = true ↔ i = p.dom.rootId ∨ i ∈ T.pre := by
    intro i
    rw [ad.grown.live, ad.grown.rootId]
    simp [St.init]
  have hl : G.kids p.dom.rootId = l := by rw [ad.grown.rootId, ad.kids]; rfl
  have hplain := ad.is.plain (Dom.upToElement_attrs (domOf_plain L _ x .root [] none))
  refine ⟨ad.built.reachable, ad.built.acyclic, ?_, G, T, ad.desc, by rw [hl]; exact ad.of, ad.is, hlive⟩
  rintro i j hi ⟨a, ha, haj⟩
  rw [refersTo_iff] at haj
  rcases (hlive i).1 hi with rfl | hi
  · have : p.dom.attributes p.dom.rootId = [] := by
      rw [ad.grown.rootId, ad.grown.attrs _ (by simp [St.init])]
      rfl
    rw [this] at ha
    simp at ha
  · rw [hplain i hi a ha] at haj
    simp at haj

/-- C94: every node of a refused document is freed. -/
theorem C94_freed {L : Lib} {debug : Bool} {x : Xml} (e : parseSvg L debug x = .error .noSvgElement) :
    ∃ s t u, parseSvgU L debug x = .ok (s, false) ∧ s.dropDocument = .ok t ∧ Freed t u ∧ ∀ j, u.live j = false := by
  obtain ⟨s, hs⟩ := (C94_exact L debug x).2.1.1 e
  obtain ⟨h, ha, hl, _⟩ := C94_built hs
  obtain ⟨t, u, h1, h2, h3⟩ := C72_partial h ha fun i j hi hij => absurd hij (hl i j hi)
  exact ⟨s, t, u, hs, h1, h2, h3⟩

/-- A document that starts with a comment and a group: the comment, the group and the two shapes in it have been made, with a link
that was not resolved, and the parser never reaches the `svg` element. -/
def refusedXml : Xml :=
  .comment st!"c" <| xe st!"g" [] (xe st!"rect" [xa st!"fill" st!"url(#a)"] .nil <| xe st!"path" [xa st!"id" st!"a"] .nil .nil) <|
    xe st!"svg" [] (xe st!"rect" [] .nil .nil) .nil

example : ∃ s t u, parseSvgU sampleLib true refusedXml = .ok (s, false) ∧ s.live 4 = true ∧ s.tagName 4 = .id .Path ∧
    s.live 5 = false ∧ s.dropDocument = .ok t ∧ t.live 4 = true ∧ Freed t u ∧ ∀ j, u.live j = false := by
  have h : (match parseSvgU sampleLib true refusedXml with
    | .ok (s, false) => s.live 4 && decide (s.tagName 4 = .id .Path) && !s.live 5 && okAnd s.dropDocument fun t => t.live 4
    | _ => false) = true := by decide +kernel
  split at h
  · next s hs =>
    simp only [Bool.and_eq_true, decide_eq_true_eq, Bool.not_eq_true', okAnd_iff] at h
    obtain ⟨⟨⟨h1, h2⟩, h3⟩, t, ht, h4⟩ := h
    obtain ⟨s', t', u, e, e', hf⟩ := C94_freed ((C94_exact sampleLib true refusedXml).2.1.2 ⟨s, hs⟩)
    rw [hs] at e
    cases e
    rw [ht] at e'
    cases e'
    exact ⟨s, t, u, hs, h1, h2, h3, ht, h4, hf⟩
  · simp at h

end Svgdom
